import Verif.Lemmas.PropsStorage
import Verif.Lemmas.Storage
import Verif.Lemmas.Utf8
import Verif.Lemmas.Limits
import Verif.Props.Successor
import Verif.Props.Encoding

/-! Properties of the queries behind the store: prefix driver and `KDTreeStorage` (C33–C38) and
reference counts (C41). `lib` is any k-d tree library that fulfils the contract. -/

namespace Willow.Props

open Willow Spec

/-- A library that returns keys in stored order, used in examples. -/
def listLib : KdLib :=
  { query := fun kd q => kd.filter fun k => isIncluded3d orderSubspace q k.pos, perm := fun _ _ => List.Perm.refl _,
    values := fun kd => kd, valuesPerm := fun _ => List.Perm.refl _ }

/-! ## C33 -/

/-- C33 is violated: an entry stored at the empty path is never found. -/
theorem C33_violated_root (lib : KdLib) : ∃ (p : PathParams) (kd : List KdKey) (k : KdKey) (s : Bytes) (path : Path),
    ValidPath p path ∧ k ∈ kd ∧ k.pos.subspace = s ∧ k.pos.path <+: path ∧ k.pos.path ≠ path ∧
    driverPrefixesOf lib p kd s path = .ok [] :=
  ⟨tinyParams, [⟨⟨[7], [], 5⟩, []⟩], ⟨⟨[7], [], 5⟩, []⟩, [7], [[1]],
    ⟨by decide, by decide, by decide⟩, by simp, rfl, by simp, by decide, rfl⟩

/-- C33 is violated: asking for the entries above the empty path panics. -/
theorem C33_violated_crash (lib : KdLib) (p : PathParams) (kd : List KdKey) (s : Bytes) :
    driverPrefixesOf lib p kd s [] = .crash := by
  simp [driverPrefixesOf, prefixesOf, slice]

/-- C33, partial: for a valid non-empty path the entries found are exactly the stored entries
of the subspace at proper non-empty prefixes, each once. Missing: an entry at the empty path,
and the empty path itself (see the violations). -/
theorem C33_prefixesOf_partial (lib : KdLib) (p : PathParams) (kd : List KdKey) (s : Bytes) (path : Path)
    (hv : ValidPath p path) (hne : path ≠ []) :
    ∃ ks, driverPrefixesOf lib p kd s path = .ok ks ∧
      ∀ k, (k ∈ ks ↔ k ∈ kd ∧ k.pos.subspace = s ∧ k.pos.path <+: path ∧ k.pos.path ≠ path ∧ k.pos.path ≠ []) ∧
        ks.count k ≤ kd.count k := by
  obtain ⟨ks, h1, h2⟩ := driverPrefixesOf_ok lib p kd s path hv hne
  refine ⟨ks, h1, fun k => ⟨?_, ?_⟩⟩
  · rw [h2.mem_iff, List.mem_filter]
    simp only [decide_eq_true_eq]
    constructor
    · rintro ⟨a, b, c, d, e⟩; exact ⟨a, b, c, e, d⟩
    · rintro ⟨a, b, c, d, e⟩; exact ⟨a, b, c, e, d⟩
  · rw [h2.count_eq]
    exact List.filter_sublist.count_le k

example : ValidPath tinyParams [[1], [2]] ∧ ([[1], [2]] : Path) ≠ [] ∧
    driverPrefixesOf listLib tinyParams [⟨⟨[7], [[1]], 5⟩, []⟩, ⟨⟨[8], [[1]], 5⟩, []⟩, ⟨⟨[7], [[1], [2]], 6⟩, []⟩] [7] [[1], [2]]
      = .ok [⟨⟨[7], [[1]], 5⟩, []⟩] :=
  ⟨⟨by decide, by decide, by decide⟩, by decide, by decide +kernel⟩

/-! ## C34 -/

/-- C34 is violated: when the last component has the maximal length the search is for the
extensions of a changed path, and the entry below the path is missed. -/
theorem C34_violated_missed (lib : KdLib) : ∃ (p : PathParams) (kd : List KdKey) (k : KdKey) (s : Bytes) (path : Path),
    ValidPath p path ∧ k ∈ kd ∧ ValidPath p k.pos.path ∧ k.pos.subspace = s ∧ path <+: k.pos.path ∧
    k.pos.path ≠ path ∧ prefixedBy lib p kd s path = .ok [] := by
  refine ⟨tinyParams, [⟨⟨[7], [[1, 2, 3], [9]], 5⟩, []⟩], ⟨⟨[7], [[1, 2, 3], [9]], 5⟩, []⟩, [7], [[1, 2, 3]],
    ⟨by decide, by decide, by decide⟩, by simp, ⟨by decide, by decide, by decide⟩, rfl, by decide, by decide, ?_⟩
  have : belowRange tinyParams [7] [[1, 2, 3]] =
      .ok ⟨⟨[7], [7, 0], false⟩, ⟨[[1, 2, 4], []], [[1, 2, 4]], false⟩, ⟨0, 2, true⟩⟩ := by decide +kernel
  unfold prefixedBy
  rw [this]
  simp only [Res.ok_bind, Res.ok.injEq]
  exact (List.Perm.trans (lib.perm _ _) (by decide +kernel)).eq_nil

/-- C34 is violated: with a last component of 255s of maximal length there is no successor,
the end of the range becomes the empty path, and nothing is found. -/
theorem C34_violated_nil (lib : KdLib) : ∃ (p : PathParams) (kd : List KdKey) (k : KdKey) (s : Bytes) (path : Path),
    ValidPath p path ∧ pathBytes path < p.pl ∧ k ∈ kd ∧ ValidPath p k.pos.path ∧ k.pos.subspace = s ∧ path <+: k.pos.path ∧
    k.pos.path ≠ path ∧ prefixedBy lib p kd s path = .ok [] := by
  refine ⟨tinyParams, [⟨⟨[7], [[255, 255, 255], [9]], 5⟩, []⟩], ⟨⟨[7], [[255, 255, 255], [9]], 5⟩, []⟩, [7], [[255, 255, 255]],
    ⟨by decide, by decide, by decide⟩, by decide, by simp, ⟨by decide, by decide, by decide⟩, rfl, by decide, by decide, ?_⟩
  have : belowRange tinyParams [7] [[255, 255, 255]] =
      .ok ⟨⟨[7], [7, 0], false⟩, ⟨[[255, 255, 255], []], [], false⟩, ⟨0, 2, true⟩⟩ := by decide +kernel
  unfold prefixedBy
  rw [this]
  simp only [Res.ok_bind, Res.ok.injEq]
  exact (List.Perm.trans (lib.perm _ _) (by decide +kernel)).eq_nil

/-- C34 is violated: a path that uses the whole allowed length ends the process (with the
limits of the application). -/
theorem C34_violated_crash (lib : KdLib) (kd : List KdKey) (s : Bytes) : ∃ path : Path,
    ValidPath appParams path ∧ prefixedBy lib appParams kd s path = .crash := by
  refine ⟨[List.replicate 25 1, List.replicate 25 1], ⟨by decide, by decide, by decide⟩, ?_⟩
  have : ∀ s, belowRange appParams s [List.replicate 25 1, List.replicate 25 1] = .crash := by
    intro s
    unfold belowRange
    have h1 : successorPrefix [List.replicate 25 1, List.replicate 25 1] appParams = .crash := by decide
    have h2 : ∃ x, successorPath [List.replicate 25 1, List.replicate 25 1] appParams = .ok x := ⟨_, rfl⟩
    obtain ⟨x, h2⟩ := h2
    rw [h1, h2]
    rfl
  unfold prefixedBy
  rw [this]
  rfl

/-- C34, partial: below a comfortable path (largest components at its end left out, there is a last
component with room for one more byte in it and in the total) the entries found are exactly the
stored entries of the subspace whose path properly extends it, each once. Missing: other paths
(see the violations and `C34_exact`). -/
theorem C34_prefixedBy_partial (lib : KdLib) (p : PathParams) (kd : List KdKey) (s : Bytes) (path : Path)
    (hc : Comfortable p path) (hkd : ∀ k ∈ kd, ValidPath p k.pos.path) :
    ∃ ks, prefixedBy lib p kd s path = .ok ks ∧
      ∀ k, (k ∈ ks ↔ k ∈ kd ∧ k.pos.subspace = s ∧ path <+: k.pos.path ∧ k.pos.path ≠ path) ∧
        ks.count k ≤ kd.count k := by
  obtain ⟨ks, h1, h2⟩ := prefixedBy_ok lib p kd s path hc hkd
  refine ⟨ks, h1, fun k => ⟨?_, ?_⟩⟩
  · rw [h2.mem_iff, List.mem_filter]; simp
  · rw [h2.count_eq]
    exact List.filter_sublist.count_le k

example : Comfortable tinyParams [[1, 2]] ∧ Comfortable tinyParams [[1], [255, 255, 255]] ∧
    (∀ k ∈ ([⟨⟨[7], [[1, 2], [9]], 5⟩, []⟩, ⟨⟨[7], [[1, 2]], 6⟩, []⟩, ⟨⟨[7], [[1, 3]], 6⟩, []⟩] : List KdKey),
      ValidPath tinyParams k.pos.path) ∧
    prefixedBy listLib tinyParams [⟨⟨[7], [[1, 2], [9]], 5⟩, []⟩, ⟨⟨[7], [[1, 2]], 6⟩, []⟩, ⟨⟨[7], [[1, 3]], 6⟩, []⟩] [7] [[1, 2]]
      = .ok [⟨⟨[7], [[1, 2], [9]], 5⟩, []⟩] := by
  refine ⟨⟨⟨by decide, by decide, by decide⟩, [], [1, 2], [], rfl, by decide, by decide, by simp⟩,
    ⟨⟨by decide, by decide, by decide⟩, [], [1], [[255, 255, 255]], rfl, by decide, by decide, by decide⟩, ?_, by decide +kernel⟩
  simp only [List.forall_mem_cons, List.not_mem_nil, false_implies, implies_true, and_true]
  exact ⟨⟨by decide, by decide, by decide⟩, ⟨by decide, by decide, by decide⟩, ⟨by decide, by decide, by decide⟩⟩

/-- C34: the entries found below a valid path are always the right ones exactly if the path is
comfortable, or has the maximal number of components and largest ones only (then nothing can be
below it). -/
theorem C34_exact (lib : KdLib) (p : PathParams) (hw : NoWrap p) (s : Bytes) (path : Path) (hv : ValidPath p path) :
    (∀ kd : List KdKey, (∀ k ∈ kd, ValidPath p k.pos.path) → ∃ ks, prefixedBy lib p kd s path = .ok ks ∧
      ∀ k, k ∈ ks ↔ k ∈ kd ∧ k.pos.subspace = s ∧ path <+: k.pos.path ∧ k.pos.path ≠ path) ↔
    Comfortable p path ∨ (path.length = p.cc ∧ ∀ c ∈ path, c = List.replicate p.cl 255) := by
  have hmiss : ∀ r, belowRange p s path = .ok r → path.length < p.cc → ¬ InRange PathLt r.path (path ++ [[]]) →
      ¬ ∀ kd : List KdKey, (∀ k ∈ kd, ValidPath p k.pos.path) → ∃ ks, prefixedBy lib p kd s path = .ok ks ∧
        ∀ k, k ∈ ks ↔ k ∈ kd ∧ k.pos.subspace = s ∧ path <+: k.pos.path ∧ k.pos.path ≠ path := by
    intro r hr hl hn h
    obtain ⟨ks, h1, h2⟩ := h [⟨⟨s, path ++ [[]], 0⟩, []⟩] (by simpa using valid_snoc_nil hv hl)
    have h3 := (h2 ⟨⟨s, path ++ [[]], 0⟩, []⟩).2 ⟨by simp, rfl, by simp, by simp⟩
    unfold prefixedBy at h1
    rw [hr] at h1
    cases h1
    have h4 := (lib.perm _ _).mem_iff.1 h3
    rw [List.mem_filter] at h4
    have h5 := (isIncluded3d_iff decides_subspace _ _).1 h4.2
    exact hn h5.2.1
  constructor
  · intro h
    rcases pathKind hv with hk | hk | ⟨pre, c, hp, hc, ht⟩ | ⟨pre, post, x, b, k, hp, hb, hlen, hpost⟩
    · exact .inl hk
    · by_cases hl : path.length < p.cc
      · exfalso
        refine hmiss _ (by unfold belowRange; rw [successorPath_short hv hl, successorPrefix_largest hk]; rfl) hl ?_ h
        rintro ⟨_, h2 | h2⟩
        · simp at h2
        · exact lexLt_nil _ h2
      · exact .inr ⟨by have := hv.count; omega, hk⟩
    · exfalso
      obtain ⟨ks, h1, _⟩ := h [] (by simp)
      rw [hp] at ht
      have hcr := successorPrefix_noroom hw hc ht
      unfold prefixedBy belowRange at h1
      rw [hp, hcr] at h1
      cases hsp : successorPath (pre ++ [c]) p <;> rw [hsp] at h1 <;> cases h1
    · exfalso
      by_cases hl : path.length < p.cc
      · have hmut : successorPrefixMutated path p = pre ++ (x ++ (b + 1) :: List.replicate k 255) :: post := by
          rw [hp]; exact successorPrefixMutated_full hb hlen hpost
        have hsp : successorPrefix path p = .ok (some (pre ++ [x ++ [b + 1]])) := by
          rw [hp]; exact successorPrefix_full hb hlen hpost (hp ▸ hv)
        refine hmiss _ (by unfold belowRange; rw [successorPath_short hv hl, hsp]; rfl) hl ?_ h
        rintro ⟨h1, _⟩
        apply h1
        simp only [Option.getD_some, List.length_append, List.length_singleton, if_true, hmut, List.drop_left]
        rw [hp, List.append_assoc, List.append_assoc, PathLt, lexLt_append_left bytesLt_strictTotal.irrefl]
        refine .inl ?_
        rw [BytesLt, lexLt_append_left u8_strictTotal.irrefl]
        exact .inl (u8_succ_lt hb)
      · have hcc : path.length = p.cc := by have := hv.count; omega
        obtain ⟨ks, h1, _⟩ := h [] (by simp)
        rw [hp] at hcc
        have hcr := successorPath_full (pre := pre) hb hlen hpost hw hcc
        unfold prefixedBy belowRange at h1
        rw [hp, hcr] at h1
        cases h1
  · rintro (h | ⟨hl, h⟩) kd hkd
    · obtain ⟨ks, h1, h2⟩ := C34_prefixedBy_partial lib p kd s path h hkd
      exact ⟨ks, h1, fun k => (h2 k).1⟩
    · obtain ⟨q, hq⟩ : ∃ q, successorPath path p = .ok q := by
        by_cases hne : path = []
        · subst hne; exact ⟨_, rfl⟩
        · exact ⟨_, successorPath_largest hne hl h⟩
      refine ⟨_, by unfold prefixedBy belowRange; rw [hq, successorPrefix_largest h]; rfl, fun k => ⟨fun hk => ?_, ?_⟩⟩
      · exfalso
        have h4 := (lib.perm _ _).mem_iff.1 hk
        rw [List.mem_filter] at h4
        have h5 := (isIncluded3d_iff decides_subspace _ _).1 h4.2
        rcases h5.2.1.2 with h6 | h6
        · simp at h6
        · exact lexLt_nil _ h6
      · rintro ⟨hk, _, h1, h2⟩
        exact absurd (h1.eq_of_length_le (by have := (hkd k hk).count; omega)).symm h2

example : NoWrap tinyParams ∧ ValidPath tinyParams [[1, 2, 3]] ∧ ValidPath tinyParams [[1], [255, 255, 255]] :=
  ⟨⟨by decide, by decide⟩, ⟨by decide, by decide, by decide⟩, ⟨by decide, by decide, by decide⟩⟩

/-! ## C35 -/

/-- C35 is violated: a stored position at a path that has no successor is not found. -/
theorem C35_violated_nil (lib : KdLib) : ∃ (p : PathParams) (kd : List KdKey) (s : Bytes) (path : Path) (t : UInt64),
    ValidPath p path ∧ kd = [⟨⟨s, path, t⟩, []⟩] ∧ storageGet lib p kd s path = .ok none := by
  refine ⟨{ bits := 8, cc := 1, cl := 1, pl := 1 }, _, [7], [[255]], 5, ⟨by decide, by decide, by decide⟩, rfl, ?_⟩
  have : pointRange { bits := 8, cc := 1, cl := 1, pl := 1 } [7] [[255]] =
      .ok ⟨⟨[7], [7, 0], false⟩, ⟨[[255]], [], false⟩, ⟨0, 2, true⟩⟩ := by decide +kernel
  unfold storageGet
  rw [this]
  simp only [Res.ok_bind]
  rw [(List.Perm.trans (lib.perm _ _) (by decide +kernel : List.Perm _ [])).eq_nil]

/-- C35 is violated: looking up a path of 50 one-byte components (the limits of the
application) ends the process. -/
theorem C35_violated_crash (lib : KdLib) (kd : List KdKey) (s : Bytes) : ∃ path : Path,
    ValidPath appParams path ∧ storageGet lib appParams kd s path = .crash := by
  refine ⟨List.replicate 50 [7], ⟨by decide, by decide, by decide⟩, ?_⟩
  have : successorPath (List.replicate 50 [7]) appParams = .crash := by decide
  unfold storageGet pointRange
  rw [this]
  rfl

/-- C35, partial: with at most one stored position per subspace and path (see C44), the lookup of a
path with room for one more component, or of the empty one, or of a comfortable one if the stored
paths are valid, returns exactly the stored position. Missing: other paths with the maximal number of components
(see the violations and `C35_exact`). -/
theorem C35_storageGet_partial (lib : KdLib) (p : PathParams) (kd : List KdKey) (s : Bytes) (path : Path)
    (hv : ValidPath p path) (hl : path.length < p.cc ∨ (Comfortable p path ∧ ∀ k ∈ kd, ValidPath p k.pos.path) ∨ path = [])
    (hu : kd.Pairwise fun a b => ¬ (a.pos.subspace = b.pos.subspace ∧ a.pos.path = b.pos.path)) :
    ∃ o, storageGet lib p kd s path = .ok o ∧
      ∀ pos, o = some pos ↔ (pos.subspace = s ∧ pos.path = path ∧ ∃ k ∈ kd, k.pos = pos) := by
  refine storageGet_ok lib p kd s path hv hl ?_
  have hp := hu.filter (fun k => decide (k.pos.subspace = s ∧ k.pos.path = path))
  have hsub : ∀ x ∈ kd.filter (fun k => decide (k.pos.subspace = s ∧ k.pos.path = path)),
      x ∈ kd.filter (fun k => decide (k.pos.subspace = s ∧ k.pos.path = path)) := fun _ h => h
  generalize hl' : (kd.filter fun k => decide (k.pos.subspace = s ∧ k.pos.path = path)) = l at hp ⊢
  match l with
  | [] => exact Nat.zero_le _
  | [_] => exact Nat.le_refl _
  | a :: b :: _ =>
    exfalso
    have ha := hsub a (by rw [hl']; simp)
    have hb := hsub b (by rw [hl']; simp)
    simp only [List.mem_filter, decide_eq_true_eq] at ha hb
    have := (List.pairwise_cons.1 hp).1 b (by simp)
    exact this ⟨ha.2.1.trans hb.2.1.symm, ha.2.2.trans hb.2.2.symm⟩

/-- C35 is violated whenever the tree holds several positions with the subspace and path (as after a
process that ended in the middle of a write, `C111_violated`): the lookup ends the process. -/
theorem C35_violated_several (lib : KdLib) (p : PathParams) (kd : List KdKey) (s : Bytes) (path : Path)
    (hv : ValidPath p path) (hl : path.length < p.cc ∨ (Comfortable p path ∧ ∀ k ∈ kd, ValidPath p k.pos.path) ∨ path = [])
    (hu : 2 ≤ (kd.filter fun k => decide (k.pos.subspace = s ∧ k.pos.path = path)).length) :
    storageGet lib p kd s path = .crash :=
  storageGet_several lib p kd s path hv hl hu

example : ValidPath tinyParams [[1]] ∧ ([[1]] : Path).length < tinyParams.cc ∧
    2 ≤ ([(⟨⟨[7], [[1]], 5⟩, []⟩ : KdKey), ⟨⟨[7], [[2]], 6⟩, []⟩, ⟨⟨[7], [[1]], 8⟩, []⟩].filter fun k =>
      decide (k.pos.subspace = [7] ∧ k.pos.path = [[1]])).length :=
  ⟨⟨by decide, by decide, by decide⟩, by decide, by decide⟩

/-- C35: the lookup of a valid path always returns exactly the stored position exactly if the path has
room for one more component, or is comfortable, or empty. -/
theorem C35_exact (lib : KdLib) (p : PathParams) (hw : NoWrap p) (s : Bytes) (path : Path) (hv : ValidPath p path) :
    (∀ kd : List KdKey, (∀ k ∈ kd, ValidPath p k.pos.path) →
      kd.Pairwise (fun a b => ¬ (a.pos.subspace = b.pos.subspace ∧ a.pos.path = b.pos.path)) →
      ∃ o, storageGet lib p kd s path = .ok o ∧
        ∀ pos, o = some pos ↔ (pos.subspace = s ∧ pos.path = path ∧ ∃ k ∈ kd, k.pos = pos)) ↔
    path.length < p.cc ∨ Comfortable p path ∨ path = [] := by
  constructor
  · intro h
    by_cases hl : path.length < p.cc
    · exact .inl hl
    right
    have hcc : path.length = p.cc := by have := hv.count; omega
    rcases pathKind hv with hk | hk | ⟨pre, c, hp, hc, ht⟩ | ⟨pre, post, x, b, k, hp, hb, hlen, hpost⟩
    · exact .inl hk
    · by_cases hne : path = []
      · exact .inr hne
      · exfalso
        obtain ⟨o, h1, h2⟩ := h [⟨⟨s, path, 0⟩, []⟩] (by simpa using hv) (by simp)
        have ho := (h2 ⟨s, path, 0⟩).2 ⟨rfl, rfl, by simp⟩
        unfold storageGet pointRange at h1
        rw [successorPath_largest hne hcc hk] at h1
        simp only [Res.ok_bind, Option.getD_none] at h1
        have hq : lib.query [⟨⟨s, path, 0⟩, []⟩] ⟨⟨s, successorSubspaceId s, false⟩, ⟨path, [], false⟩, ⟨0, 2, true⟩⟩ = [] := by
          rw [List.eq_nil_iff_forall_not_mem]
          intro k hk
          have h4 := (lib.perm _ _).mem_iff.1 hk
          rw [List.mem_filter] at h4
          have h5 := (isIncluded3d_iff decides_subspace _ _).1 h4.2
          rcases h5.2.1.2 with h6 | h6
          · simp at h6
          · exact lexLt_nil _ h6
        rw [hq] at h1
        cases h1
        cases ho
    · exfalso
      obtain ⟨o, h1, _⟩ := h [] (by simp) (by simp)
      rw [hp] at ht hcc
      unfold storageGet pointRange at h1
      rw [hp, successorPath_noroom hw hc ht hcc] at h1
      cases h1
    · exfalso
      obtain ⟨o, h1, _⟩ := h [] (by simp) (by simp)
      rw [hp] at hcc
      unfold storageGet pointRange at h1
      rw [hp, successorPath_full hb hlen hpost hw hcc] at h1
      cases h1
  · rintro h kd hkd hu
    exact C35_storageGet_partial lib p kd s path hv (h.imp_right fun h => h.imp_left fun h => ⟨h, hkd⟩) hu

/-- C35, partial: the entry driver then returns the entry with the recorded digest, length,
token digest and timestamp, or "entry does not exist". -/
theorem C35_entryGet_partial (env : StoreEnv) (st : StoreState) (s : Bytes) (path : Path)
    (hv : ValidPath env.p path) (hl : path.length < env.p.cc ∨ (Comfortable env.p path ∧ ∀ k ∈ st.kd, ValidPath env.p k.pos.path) ∨ path = [])
    (hu : st.kd.Pairwise fun a b => ¬ (a.pos.subspace = b.pos.subspace ∧ a.pos.path = b.pos.path))
    (hkv : ∀ k ∈ st.kd, ∃ v : Values, v.payloadDigest.length < 2 ^ 64 ∧ v.authDigest.length < 2 ^ 64 ∧
      st.kv.get (encodeKey env.p k.pos) = some (encodeValues v)) :
    (entryGet env st s path = .ok .missing ∧ ∀ k ∈ st.kd, ¬ (k.pos.subspace = s ∧ k.pos.path = path)) ∨
    (∃ k ∈ st.kd, ∃ v : Values, k.pos.subspace = s ∧ k.pos.path = path ∧
      st.kv.get (encodeKey env.p k.pos) = some (encodeValues v) ∧
      entryGet env st s path = .ok (.found
        { namespaceId := env.namespaceId, subspaceId := s, path := path, payloadDigest := v.payloadDigest,
          payloadLength := v.payloadLength, timestamp := k.pos.time } v.authDigest)) := by
  obtain ⟨o, h1, h2⟩ := C35_storageGet_partial env.lib env.p st.kd s path hv hl hu
  unfold entryGet
  rw [h1]
  cases o with
  | none =>
    refine .inl ⟨rfl, fun k hk hc => ?_⟩
    have := (h2 k.pos).2 ⟨hc.1, hc.2, k, hk, rfl⟩
    simp at this
  | some pos =>
    obtain ⟨ha, hb, k, hk, rfl⟩ := (h2 pos).1 rfl
    obtain ⟨v, hv1, hv2, hv3⟩ := hkv k hk
    refine .inr ⟨k, hk, v, ha, hb, hv3, ?_⟩
    simp only [Res.ok_bind, hv3, C24_roundtrip v hv1 hv2]

example : ValidPath tinyParams [[1, 2]] ∧ [[1, 2]].length < tinyParams.cc ∧
    List.Pairwise (fun a b : KdKey => ¬ (a.pos.subspace = b.pos.subspace ∧ a.pos.path = b.pos.path))
      [⟨⟨[7], [[1, 2], [9]], 5⟩, []⟩, ⟨⟨[7], [[1, 2]], 6⟩, []⟩, ⟨⟨[8], [[1, 2]], 6⟩, []⟩] ∧
    storageGet listLib tinyParams [⟨⟨[7], [[1, 2], [9]], 5⟩, []⟩, ⟨⟨[7], [[1, 2]], 6⟩, []⟩, ⟨⟨[8], [[1, 2]], 6⟩, []⟩] [7] [[1, 2]]
      = .ok (some ⟨[7], [[1, 2]], 6⟩) :=
  ⟨⟨by decide, by decide, by decide⟩, by decide, by decide, by decide +kernel⟩

/-! ## C36 -/

/-- C36: the summary does not depend on the order in which the library returns the keys. -/
theorem C36_order (lib lib' : KdLib) (kd kd' : List KdKey) (h : kd.Perm kd') (r : Range3d) :
    summarise lib kd r = summarise lib' kd' r := by
  unfold summarise
  apply summariseLoop_perm
  exact (lib.perm kd r).trans ((h.filter _).trans (lib'.perm kd' r).symm)

example : [(⟨⟨[7], [[1]], 5⟩, []⟩ : KdKey), ⟨⟨[7], [[2]], 6⟩, []⟩].Perm [⟨⟨[7], [[2]], 6⟩, []⟩, ⟨⟨[7], [[1]], 5⟩, []⟩] ∧
    summarise listLib [⟨⟨[7], [[1]], 5⟩, []⟩, ⟨⟨[7], [[2]], 6⟩, []⟩] ⟨⟨[7], [], true⟩, ⟨[], [], true⟩, ⟨0, 0, true⟩⟩ = .ok ([], 2) :=
  ⟨List.Perm.swap .., by decide +kernel⟩

/-- C36 is violated: as soon as an entry in the range has a fingerprint the process ends. -/
theorem C36_violated_crash (lib : KdLib) (kd : List KdKey) (r : Range3d) (k : KdKey) (hk : k ∈ kd)
    (hr : InRange3d r k.pos) (hf : k.fingerprint ≠ []) : summarise lib kd r = .crash :=
  summariseLoop_crash _ _ ⟨k, (lib.mem_query kd r k).2 ⟨hk, hr⟩, hf⟩

example : ∃ (kd : List KdKey) (r : Range3d) (k : KdKey), k ∈ kd ∧ InRange3d r k.pos ∧ k.fingerprint ≠ [] :=
  ⟨[⟨⟨[7], [[1]], 5⟩, [1]⟩], ⟨⟨[7], [], true⟩, ⟨[], [], true⟩, ⟨0, 0, true⟩⟩, ⟨⟨[7], [[1]], 5⟩, [1]⟩, by simp, by
    rw [← isIncluded3d_iff decides_subspace]; decide, by decide⟩

/-- C36, partial: whenever the summary returns, its size is the number of stored entries in
the range (modulo 2^64). Missing: its fingerprint is always empty (see
`C36_violated_crash` for the other entries). -/
theorem C36_size_partial (lib : KdLib) (kd : List KdKey) (r : Range3d) (fp : Bytes) (n : UInt64)
    (h : summarise lib kd r = .ok (fp, n)) :
    fp = [] ∧ n = UInt64.ofNat (howMany (fun k => InRange3d r k.pos) kd) ∧
    ∀ k ∈ kd, InRange3d r k.pos → k.fingerprint = [] := by
  have hall : ∀ k ∈ kd, InRange3d r k.pos → k.fingerprint = [] := by
    intro k hk hr
    by_cases hf : k.fingerprint = []
    · exact hf
    · rw [C36_violated_crash lib kd r k hk hr hf] at h; cases h
  unfold summarise at h
  rw [summariseLoop_empty _ _ fun k hk => by
    have := (lib.mem_query kd r k).1 hk
    exact hall k this.1 this.2] at h
  cases h
  refine ⟨rfl, ?_, hall⟩
  rw [(lib.perm kd r).length_eq, howMany_in]
  simp

/-- C36, partial: when a range is divided into two parts, the sizes add up and the fingerprints
combine by xor, if all three summaries return. -/
theorem C36_split_partial (lib : KdLib) (kd : List KdKey) (r a b : Range3d) (fp fa fb : Bytes) (n na nb : UInt64)
    (hdiv : ∀ x, (InRange3d r x ↔ InRange3d a x ∨ InRange3d b x) ∧ ¬ (InRange3d a x ∧ InRange3d b x))
    (h : summarise lib kd r = .ok (fp, n)) (ha : summarise lib kd a = .ok (fa, na))
    (hb : summarise lib kd b = .ok (fb, nb)) : n = na + nb ∧ IsXor fa fb fp := by
  obtain ⟨h1, h2, _⟩ := C36_size_partial lib kd r fp n h
  obtain ⟨a1, a2, _⟩ := C36_size_partial lib kd a fa na ha
  obtain ⟨b1, b2, _⟩ := C36_size_partial lib kd b fb nb hb
  subst h1 a1 b1
  refine ⟨?_, rfl, fun i x y hx => by simp at hx⟩
  have hp := filter_or_perm (fun k : KdKey => isIncluded3d orderSubspace a k.pos)
    (fun k => isIncluded3d orderSubspace b k.pos) (fun k => isIncluded3d orderSubspace r k.pos) kd
    (fun k _ => by
      rw [Bool.eq_iff_iff, Bool.or_eq_true]
      simp only [isIncluded3d_iff decides_subspace]
      exact (hdiv k.pos).1)
    (fun k _ => by
      simp only [isIncluded3d_iff decides_subspace]
      exact (hdiv k.pos).2)
  rw [h2, howMany_in, hp.length_eq, List.length_append, UInt64.ofNat_add, ← howMany_in, ← howMany_in, ← a2, ← b2]

example : summarise listLib [⟨⟨[7], [[1]], 5⟩, []⟩, ⟨⟨[8], [[1]], 5⟩, []⟩, ⟨⟨[7], [[1]], 9⟩, []⟩]
    ⟨⟨[7], [], true⟩, ⟨[], [], true⟩, ⟨0, 9, false⟩⟩ = .ok ([], 2) := by decide +kernel

example : ∃ (lib : KdLib) (kd : List KdKey) (r a b : Range3d) (fp fa fb : Bytes) (n na nb : UInt64),
    (∀ x, (InRange3d r x ↔ InRange3d a x ∨ InRange3d b x) ∧ ¬ (InRange3d a x ∧ InRange3d b x)) ∧
    summarise lib kd r = .ok (fp, n) ∧ summarise lib kd a = .ok (fa, na) ∧ summarise lib kd b = .ok (fb, nb) ∧
    n = 2 ∧ na = 1 := by
  refine ⟨listLib, [⟨⟨[7], [[1]], 5⟩, []⟩, ⟨⟨[7], [[1]], 9⟩, []⟩], ⟨⟨[7], [], true⟩, ⟨[], [], true⟩, ⟨0, 0, true⟩⟩,
    ⟨⟨[7], [], true⟩, ⟨[], [], true⟩, ⟨0, 7, false⟩⟩, ⟨⟨[7], [], true⟩, ⟨[], [], true⟩, ⟨7, 0, true⟩⟩,
    [], [], [], 2, 1, 1, ?_, by decide +kernel, by decide +kernel, by decide +kernel, rfl, rfl⟩
  intro x
  simp only [InRange3d, InRange, TimeLt, Bool.false_eq_true, false_or, true_or, and_true]
  have : ¬ x.time < 0 := by simp [UInt64.lt_iff_toNat_lt]
  grind

/-- C36: exactly what `xorStrings` makes of two fingerprints of equal length, whatever they are: the exclusive or
of the bytes with which a character begins in the first, and zero in place of every other byte. -/
theorem C36_characters (a b : Bytes) (hl : a.length = b.length) :
    ∃ c, xorStrings a b = .ok c ∧ c.length = a.length ∧
      ∀ (i : Nat) (x y : UInt8), a[i]? = some x → b[i]? = some y →
        (CharBegins a i → c[i]? = some (x ^^^ y)) ∧ (¬ CharBegins a i → c[i]? = some 0) := by
  refine ⟨xorLoop 0 a b, by simp [xorStrings, hl], xorLoop_length 0 a b hl, fun i x y hx hy => ?_⟩
  have h := xorLoop_get 0 a b hl i x y hx hy
  simpa using h

example : xorStrings [0xC3, 0xA9, 0x41] [1, 2, 3] = .ok [0xC2, 0, 0x42] := by decide

/-- C36: two fingerprints are combined byte by byte exactly if they agree in every byte with which no character
begins in the first. -/
theorem C36_xor (a b : Bytes) (hl : a.length = b.length) :
    (∃ c, xorStrings a b = .ok c ∧ IsXor a b c) ↔ ∀ i, i < a.length → ¬ CharBegins a i → a[i]? = b[i]? := by
  obtain ⟨c, hc, hlen, h⟩ := C36_characters a b hl
  have hab : ∀ i, i < a.length → ∃ x y, a[i]? = some x ∧ b[i]? = some y := fun i hi =>
    ⟨_, _, List.getElem?_eq_getElem hi, List.getElem?_eq_getElem (hl ▸ hi)⟩
  constructor
  · rintro ⟨c', hc', _, hx⟩ i hi hn
    rw [hc] at hc'
    cases hc'
    obtain ⟨x, y, h1, h2⟩ := hab i hi
    have e := hx i x y h1 h2
    rw [(h i x y h1 h2).2 hn] at e
    simp only [Option.some.injEq] at e
    rw [h1, h2, UInt8.xor_eq_zero_iff.1 e.symm]
  · intro hag
    refine ⟨c, hc, hlen, fun i x y h1 h2 => ?_⟩
    by_cases hn : CharBegins a i
    · exact (h i x y h1 h2).1 hn
    · rw [(h i x y h1 h2).2 hn]
      have hi : i < a.length := (List.getElem?_eq_some_iff.1 h1).1
      have e := hag i hi hn
      rw [h1, h2] at e
      cases e
      simp

example : xorStrings [0xC3, 0xA9, 0x41] [1, 0xA9, 3] = .ok [0xC2, 0, 0x42] ∧ IsXor [0xC3, 0xA9, 0x41] [1, 0xA9, 3] [0xC2, 0, 0x42] := by
  refine ⟨by decide, rfl, fun i x y hx hy => ?_⟩
  match i with
  | 0 => simp at hx hy; subst hx hy; rfl
  | 1 => simp at hx hy; subst hx hy; rfl
  | 2 => simp at hx hy; subst hx hy; rfl
  | i + 3 => simp at hx

/-- C36 is violated by every fingerprint in which a character of more than one byte stands: `xorStrings` visits only
the bytes with which characters begin (`/repo/pkg/data_model/datamodeltypes/entryDriverTypes.go:179`), so that with
another fingerprint that differs in the second byte of the character the result is not the exclusive or. -/
theorem C36_violated_characters (before after : Bytes) (ch : Char) (hb : ∀ x ∈ before, x < 0x80)
    (hch : 0x80 ≤ ch.val) (b : Bytes) (hl : b.length = (before ++ String.utf8EncodeChar ch ++ after).length)
    (hd : b[before.length + 1]? ≠ (before ++ String.utf8EncodeChar ch ++ after)[before.length + 1]?) :
    ∃ c, xorStrings (before ++ String.utf8EncodeChar ch ++ after) b = .ok c ∧
      ¬ IsXor (before ++ String.utf8EncodeChar ch ++ after) b c := by
  obtain ⟨c, hc, _⟩ := C36_characters _ b hl.symm
  refine ⟨c, hc, fun hx => ?_⟩
  have h2 := two_le_encode hch
  have := (C36_xor _ b hl.symm).1 ⟨c, hc, hx⟩ (before.length + 1) (by rw [List.length_append, List.length_append]; omega)
    (not_charBegins_second before after ch hb hch)
  exact hd this.symm

example : ∃ (before after : Bytes) (ch : Char) (b : Bytes), (∀ x ∈ before, x < 0x80) ∧ 0x80 ≤ ch.val ∧
    b.length = (before ++ String.utf8EncodeChar ch ++ after).length ∧
    b[before.length + 1]? ≠ (before ++ String.utf8EncodeChar ch ++ after)[before.length + 1]? ∧ before ≠ [] ∧ after ≠ [] :=
  ⟨[0x41], [0xFF], 'é', [1, 2, 3, 4], by decide, by decide, by decide, by decide, by decide, by decide⟩

/-- C36 is violated: combining two fingerprints depends on their order. -/
theorem C36_violated_order : ∃ a b : Bytes, a.length = b.length ∧ xorStrings a b ≠ xorStrings b a :=
  ⟨[0xC3, 0xA9], [0x41, 0x42], rfl, by decide⟩

/-! ## C37 -/

/-- C37: splitting a range that contains a stored entry gives two ranges that divide it. -/
theorem C37_split (lib : KdLib) (kd : List KdKey) (r : Range3d) (hk : ∃ k ∈ kd, InRange3d r k.pos) :
    ∃ a b, splitRange lib kd r = .ok (a, b) ∧
      ∀ x, (InRange3d r x ↔ InRange3d a x ∨ InRange3d b x) ∧ ¬ (InRange3d a x ∧ InRange3d b x) := by
  obtain ⟨k, hk, hr⟩ := hk
  have hmem := (lib.mem_query kd r k).2 ⟨hk, hr⟩
  have hlen : 0 < (sortByTime (lib.query kd r)).length := by
    rw [(sortByTime_perm _).length_eq]
    exact List.length_pos_of_mem hmem
  unfold splitRange
  dsimp only
  have hlt : (sortByTime (lib.query kd r)).length / 2 < (sortByTime (lib.query kd r)).length := by omega
  rw [List.getElem?_eq_getElem hlt]
  have hm : InRange3d r ((sortByTime (lib.query kd r))[(sortByTime (lib.query kd r)).length / 2]).pos := by
    have := List.getElem_mem hlt
    rw [(sortByTime_perm _).mem_iff] at this
    exact ((lib.mem_query kd r _).1 this).2
  generalize (sortByTime (lib.query kd r))[(sortByTime (lib.query kd r)).length / 2] = m at hm
  refine ⟨_, _, rfl, fun x => ?_⟩
  obtain ⟨_, _, h1, h2⟩ := hm
  simp only [InRange3d, InRange, TimeLt, Bool.false_eq_true, false_or, UInt64.lt_iff_toNat_lt] at *
  constructor
  · constructor
    · rintro ⟨ha, hb, hc, hd⟩
      by_cases hx : x.time.toNat < m.pos.time.toNat
      · exact .inl ⟨ha, hb, hc, hx⟩
      · exact .inr ⟨ha, hb, hx, hd⟩
    · rintro (⟨ha, hb, hc, hd⟩ | ⟨ha, hb, hc, hd⟩)
      · refine ⟨ha, hb, hc, ?_⟩
        rcases h2 with h2 | h2
        · exact .inl h2
        · exact .inr (by omega)
      · exact ⟨ha, hb, by omega, hd⟩
  · rintro ⟨⟨_, _, _, ha⟩, ⟨_, _, hb, _⟩⟩
    exact hb ha

example : (∃ k ∈ ([⟨⟨[7], [[1]], 5⟩, []⟩, ⟨⟨[7], [[2]], 9⟩, []⟩] : List KdKey),
      InRange3d ⟨⟨[7], [], true⟩, ⟨[], [], true⟩, ⟨0, 0, true⟩⟩ k.pos) ∧
    splitRange listLib [⟨⟨[7], [[1]], 5⟩, []⟩, ⟨⟨[7], [[2]], 9⟩, []⟩] ⟨⟨[7], [], true⟩, ⟨[], [], true⟩, ⟨0, 0, true⟩⟩ =
      .ok (⟨⟨[7], [], true⟩, ⟨[], [], true⟩, ⟨0, 9, false⟩⟩, ⟨⟨[7], [], true⟩, ⟨[], [], true⟩, ⟨9, 0, true⟩⟩) := by
  refine ⟨⟨_, List.mem_cons_self, ?_⟩, by decide +kernel⟩
  rw [← isIncluded3d_iff decides_subspace]; decide

/-! ## C38 -/

/-- Number of stored entries in a range. -/
noncomputable def entriesIn (kd : List KdKey) (r : Range3d) : Nat := howMany (fun k => InRange3d r k.pos) kd

/-- Number of stored entries in a range that no entry of the range precedes in time. -/
noncomputable def oldestIn (kd : List KdKey) (r : Range3d) : Nat :=
  howMany (fun k => InRange3d r k.pos ∧ ∀ x ∈ kd, InRange3d r x.pos → k.pos.time ≤ x.pos.time) kd

/-- C38, partial: the first part always holds strictly fewer entries; the second part does
exactly when at most half of the entries share the smallest timestamp. Missing: ranges where
more than half of the entries share it (see `C38_violated`). -/
theorem C38_progress_partial (lib : KdLib) (kd : List KdKey) (r : Range3d) (h : 2 ≤ entriesIn kd r) :
    ∃ a b, splitRange lib kd r = .ok (a, b) ∧ entriesIn kd a < entriesIn kd r ∧
      (entriesIn kd b < entriesIn kd r ↔ 2 * oldestIn kd r ≤ entriesIn kd r) := by
  have hperm : (sortByTime (lib.query kd r)).Perm (kd.filter fun k => isIncluded3d orderSubspace r k.pos) :=
    (sortByTime_perm _).trans (lib.perm kd r)
  have hsort := sortByTime_sorted (lib.query kd r)
  unfold splitRange
  dsimp only
  generalize sortByTime (lib.query kd r) = l at hperm hsort
  have hmem : ∀ k, k ∈ l ↔ k ∈ kd ∧ InRange3d r k.pos := by
    intro k
    rw [hperm.mem_iff, List.mem_filter, isIncluded3d_iff decides_subspace]
  have hlen : entriesIn kd r = l.length := by
    rw [hperm.length_eq]; exact howMany_in kd r
  rw [hlen] at h ⊢
  have hlt : l.length / 2 < l.length := by omega
  have h0 : 0 < l.length := by omega
  rw [List.getElem?_eq_getElem hlt]
  refine ⟨_, _, rfl, ?_⟩
  have hm : l[l.length / 2] ∈ l := List.getElem_mem hlt
  have hfirst := sorted_above_first hsort (List.getElem?_eq_getElem h0) (List.getElem?_eq_getElem hlt)
  generalize hmid : l[l.length / 2] = m at hm hfirst
  have hfrom : ∀ f : KdKey → Bool, (kd.filter fun k => isIncluded3d orderSubspace r k.pos && f k).length = (l.filter f).length := by
    intro f
    rw [(hperm.filter f).length_eq, List.filter_filter]
    congr 2
    funext k
    rw [Bool.and_comm]
  have hmin : ∀ x ∈ l, l[0].pos.time ≤ x.pos.time := by
    intro x hx
    obtain ⟨i, hi, rfl⟩ := List.getElem_of_mem hx
    rcases Nat.eq_zero_or_pos i with rfl | hpos
    · exact UInt64.le_refl _
    · exact UInt64.le_iff_toNat_le.2 (List.pairwise_iff_getElem.1 hsort 0 i h0 hi hpos)
  have hleft : entriesIn kd ⟨r.subspace, r.path, ⟨r.time.start, m.pos.time, false⟩⟩ =
      (l.filter fun k => decide (k.pos.time < m.pos.time)).length := by
    rw [← hfrom]
    refine howMany_eq _ _ _ fun k _ => ?_
    rw [Bool.and_eq_true, isIncluded3d_iff decides_subspace, decide_eq_true_eq]
    obtain ⟨_, _, _, h2⟩ := (hmem m).1 hm |>.2
    simp only [InRange3d, InRange, TimeLt, Bool.false_eq_true, false_or, UInt64.lt_iff_toNat_lt] at *
    constructor
    · rintro ⟨⟨a, b, c, _⟩, e⟩; exact ⟨a, b, c, e⟩
    · rintro ⟨a, b, c, e⟩
      refine ⟨⟨a, b, c, ?_⟩, e⟩
      rcases h2 with h2 | h2
      · exact .inl h2
      · exact .inr (by omega)
  have hright : entriesIn kd ⟨r.subspace, r.path, ⟨m.pos.time, r.time.stop, r.time.openEnd⟩⟩ =
      (l.filter fun k => decide (¬ k.pos.time < m.pos.time)).length := by
    rw [← hfrom]
    refine howMany_eq _ _ _ fun k _ => ?_
    rw [Bool.and_eq_true, isIncluded3d_iff decides_subspace, decide_eq_true_eq]
    obtain ⟨_, _, h1, _⟩ := (hmem m).1 hm |>.2
    simp only [InRange3d, InRange, TimeLt, UInt64.lt_iff_toNat_lt] at *
    constructor
    · rintro ⟨⟨a, b, c, d⟩, e⟩; exact ⟨a, b, e, d⟩
    · rintro ⟨a, b, c, d⟩; exact ⟨⟨a, b, by omega, d⟩, c⟩
  have hold : oldestIn kd r = (l.filter fun k => decide (k.pos.time = l[0].pos.time)).length := by
    rw [← hfrom]
    refine howMany_eq _ _ _ fun k hk => ?_
    rw [Bool.and_eq_true, isIncluded3d_iff decides_subspace, decide_eq_true_eq]
    have hz := (hmem l[0]).1 (List.getElem_mem h0)
    constructor
    · rintro ⟨a, b⟩
      exact ⟨a, fun x hx hr => b ▸ hmin x ((hmem x).2 ⟨hx, hr⟩)⟩
    · rintro ⟨a, b⟩
      exact ⟨a, UInt64.le_antisymm (b _ hz.1 hz.2) (hmin k ((hmem k).2 ⟨hk, a⟩))⟩
  rw [hleft, hright, hold]
  constructor
  · refine Nat.lt_of_le_of_ne (List.length_filter_le _ _) fun he => ?_
    have := List.length_filter_eq_length_iff.1 he m hm
    simp [UInt64.lt_irrefl] at this
  · rw [show ∀ x : Nat, (2 * x ≤ l.length ↔ x ≤ l.length / 2) from fun x => by omega, ← hfirst]
    constructor
    · intro hl
      refine Classical.byContradiction fun hn => ?_
      refine absurd (List.length_filter_eq_length_iff.2 fun x hx => ?_) (Nat.ne_of_lt hl)
      have := hmin x hx
      simp only [UInt64.le_iff_toNat_le, UInt64.lt_iff_toNat_lt, decide_eq_true_eq] at *
      omega
    · intro hl
      refine Nat.lt_of_le_of_ne (List.length_filter_le _ _) fun he => ?_
      have := List.length_filter_eq_length_iff.1 he l[0] (List.getElem_mem h0)
      simp [hl] at this

example : 2 ≤ entriesIn [⟨⟨[7], [[1]], 5⟩, []⟩, ⟨⟨[7], [[2]], 6⟩, []⟩, ⟨⟨[8], [[2]], 9⟩, []⟩] ⟨⟨[7], [], true⟩, ⟨[], [], true⟩, ⟨5, 0, true⟩⟩ ∧
    ∃ a b, splitRange listLib [⟨⟨[7], [[1]], 5⟩, []⟩, ⟨⟨[7], [[2]], 6⟩, []⟩, ⟨⟨[8], [[2]], 9⟩, []⟩] ⟨⟨[7], [], true⟩, ⟨[], [], true⟩, ⟨5, 0, true⟩⟩ =
      .ok (a, b) := by
  refine ⟨?_, _, _, rfl⟩
  unfold entriesIn
  rw [howMany_in]
  decide +kernel

/-- C38 is violated by every range in which more than half of the entries have the oldest timestamp: the second part holds
as many entries as the range, the first part none. -/
theorem C38_violated_always (lib : KdLib) (kd : List KdKey) (r : Range3d) (h : 2 ≤ entriesIn kd r)
    (ho : entriesIn kd r < 2 * oldestIn kd r) :
    ∃ a b, splitRange lib kd r = .ok (a, b) ∧ entriesIn kd b = entriesIn kd r ∧ entriesIn kd a = 0 := by
  obtain ⟨a, b, h1, -, h2⟩ := C38_progress_partial lib kd r h
  have hk : ∃ k ∈ kd, InRange3d r k.pos := by
    refine Classical.byContradiction fun hn => ?_
    have : entriesIn kd r = 0 := by
      unfold entriesIn
      rw [howMany_in, List.length_eq_zero_iff, List.filter_eq_nil_iff]
      intro k hk hi
      exact hn ⟨k, hk, (isIncluded3d_iff decides_subspace _ _).1 hi⟩
    omega
  obtain ⟨a', b', h3, h4⟩ := C37_split lib kd r hk
  rw [h1] at h3
  cases h3
  have hsum : entriesIn kd r = entriesIn kd a + entriesIn kd b := by
    unfold entriesIn
    rw [howMany_in, howMany_in, howMany_in]
    clear h ho h1 h2 hk
    induction kd with
    | nil => rfl
    | cons k kd ih =>
      have hx := h4 k.pos
      simp only [← isIncluded3d_iff decides_subspace] at hx
      simp only [List.filter_cons]
      cases ha : isIncluded3d orderSubspace a k.pos <;> cases hb : isIncluded3d orderSubspace b k.pos <;>
        cases hr : isIncluded3d orderSubspace r k.pos <;> simp [ha, hb, hr] at hx ⊢ <;> omega
  refine ⟨a, b, h1, ?_, ?_⟩ <;> omega

example : entriesIn [⟨⟨[7], [[1]], 5⟩, []⟩, ⟨⟨[7], [[2]], 5⟩, []⟩] ⟨⟨[7], [], true⟩, ⟨[], [], true⟩, ⟨5, 0, true⟩⟩ = 2 ∧
    oldestIn [⟨⟨[7], [[1]], 5⟩, []⟩, ⟨⟨[7], [[2]], 5⟩, []⟩] ⟨⟨[7], [], true⟩, ⟨[], [], true⟩, ⟨5, 0, true⟩⟩ = 2 := by
  constructor
  · unfold entriesIn
    rw [howMany_in]
    decide +kernel
  · unfold oldestIn
    rw [howMany_eq _ (fun _ => true)]
    · rfl
    · simp only [List.forall_mem_cons, List.not_mem_nil, false_implies, implies_true, and_true, true_iff,
        ← isIncluded3d_iff decides_subspace]
      decide +kernel

/-- C38 is violated: two entries with the same timestamp are never separated; the second part
again holds both. -/
theorem C38_violated (lib : KdLib) : ∃ (kd : List KdKey) (r a b : Range3d), entriesIn kd r = 2 ∧
    splitRange lib kd r = .ok (a, b) ∧ entriesIn kd b = 2 := by
  have h2 : entriesIn [⟨⟨[7], [[1]], 5⟩, []⟩, ⟨⟨[7], [[2]], 5⟩, []⟩] ⟨⟨[7], [], true⟩, ⟨[], [], true⟩, ⟨5, 0, true⟩⟩ = 2 := by
    unfold entriesIn
    rw [howMany_in]
    decide +kernel
  obtain ⟨a, b, h, _, hb⟩ := C38_progress_partial lib _ _ (Nat.le_of_eq h2.symm)
  refine ⟨_, _, a, b, h2, h, ?_⟩
  have hold : oldestIn [⟨⟨[7], [[1]], 5⟩, []⟩, ⟨⟨[7], [[2]], 5⟩, []⟩] ⟨⟨[7], [], true⟩, ⟨[], [], true⟩, ⟨5, 0, true⟩⟩ = 2 := by
    unfold oldestIn
    rw [howMany_eq _ (fun _ => true)]
    · rfl
    · simp only [List.forall_mem_cons, List.not_mem_nil, false_implies, implies_true, and_true, true_iff,
        ← isIncluded3d_iff decides_subspace]
      decide +kernel
  have hle : entriesIn [⟨⟨[7], [[1]], 5⟩, []⟩, ⟨⟨[7], [[2]], 5⟩, []⟩] b ≤ 2 := by
    unfold entriesIn
    rw [howMany_in]
    exact List.length_filter_le _ _
  rw [h2, hold] at hb
  omega

example : 2 ≤ entriesIn [⟨⟨[7], [[1]], 5⟩, []⟩, ⟨⟨[7], [[2]], 9⟩, []⟩] ⟨⟨[7], [], true⟩, ⟨[], [], true⟩, ⟨0, 0, true⟩⟩ := by
  unfold entriesIn
  rw [howMany_in]
  decide +kernel

/-! ## C41 -/

/-- C41: if no digest is ever decremented more often than it was incremented, the count of
every digest is the number of increments minus the number of decrements (modulo 2^64), and a
digest that was never incremented is unknown. -/
theorem C41_counts (ops : List RefOp)
    (hpre : ∀ pre, pre <+: ops → ∀ d, pre.count (.dec d) ≤ pre.count (.inc d)) :
    ∃ kv, runRefs [] ops = .ok kv ∧ ∀ d,
      refCount kv d = if ops.count (.inc d) = 0 then .err
        else .ok (UInt64.ofNat (ops.count (.inc d) - ops.count (.dec d))) := by
  have hmain : ∀ rops : List RefOp,
      (∀ pre, pre <+: rops.reverse → ∀ d, pre.count (.dec d) ≤ pre.count (.inc d)) →
      ∃ kv, runRefs [] rops.reverse = .ok kv ∧ ∀ d, kv.get d = if rops.count (.inc d) = 0 then none
        else some (putU64 (UInt64.ofNat (rops.count (.inc d) - rops.count (.dec d))).toNat) := by
    intro rops
    induction rops with
    | nil => intro _; exact ⟨[], rfl, fun d => rfl⟩
    | cons op ops ih =>
      intro hpre
      rw [List.reverse_cons] at hpre ⊢
      obtain ⟨kv, h1, h2⟩ := ih fun pre hp => hpre pre (hp.trans (List.prefix_append ..))
      rw [runRefs_snoc, h1]
      have hend := hpre _ (List.prefix_refl _)
      have hbefore := hpre ops.reverse (List.prefix_append ..)
      simp only [List.count_append, List.count_singleton, List.count_reverse] at hend hbefore
      simp only [Res.ok_bind, List.count_cons]
      cases op with
      | inc d =>
        simp only [runRef, refIncrement]
        have hd := h2 d
        have hbd := hbefore d
        by_cases h0 : ops.count (.inc d) = 0
        · rw [if_pos h0] at hd
          rw [hd]
          refine ⟨_, rfl, fun x => ?_⟩
          dsimp only
          rw [KV.get_set]
          by_cases hx : x = d
          · subst hx
            have : ops.count (.dec x) = 0 := by omega
            simp [h0, this]
          · have hx' : ¬ d = x := fun h => hx h.symm
            simp [hx, hx', h2 x]
        · rw [if_neg h0] at hd
          rw [hd]
          simp only [bigEndianUint64_putU64]
          refine ⟨_, rfl, fun x => ?_⟩
          dsimp only
          rw [KV.get_set]
          by_cases hx : x = d
          · subst hx
            have : ops.count (.inc x) + 1 - ops.count (.dec x) = (ops.count (.inc x) - ops.count (.dec x)) + 1 := by omega
            simp [this, UInt64.ofNat_add]
          · have hx' : ¬ d = x := fun h => hx h.symm
            simp [hx, hx', h2 x]
      | dec d =>
        simp only [runRef, refDecrement]
        have hd := h2 d
        have hbd := hend d
        simp at hbd
        rw [if_neg (by omega)] at hd
        rw [hd]
        simp only [bigEndianUint64_putU64]
        refine ⟨_, rfl, fun x => ?_⟩
        dsimp only
        rw [KV.get_set]
        by_cases hx : x = d
        · subst hx
          have h0 : ops.count (.inc x) ≠ 0 := by omega
          have : UInt64.ofNat (ops.count (.inc x) - ops.count (.dec x)) - 1 =
              UInt64.ofNat (ops.count (.inc x) - (ops.count (.dec x) + 1)) := by
            rw [show ops.count (.inc x) - ops.count (.dec x) = (ops.count (.inc x) - (ops.count (.dec x) + 1)) + 1 by omega,
              UInt64.ofNat_add]
            simp
          simp [this, h0]
        · have hx' : ¬ d = x := fun h => hx h.symm
          simp [hx, hx', h2 x]
  obtain ⟨kv, h1, h2⟩ := hmain ops.reverse (by simpa using hpre)
  refine ⟨kv, by simpa using h1, fun d => ?_⟩
  unfold refCount
  rw [h2 d]
  simp only [List.count_reverse]
  by_cases h0 : ops.count (.inc d) = 0
  · rw [if_pos h0, if_pos h0]
  · rw [if_neg h0, if_neg h0]
    exact bigEndianUint64_putU64 _

/-- C41: the count of an unknown digest, and decrementing one, is an error; errors change
nothing (an error carries no new table). -/
theorem C41_unknown (ops : List RefOp) (d : Bytes) (kv : KV)
    (hpre : ∀ pre, pre <+: ops → ∀ d, pre.count (.dec d) ≤ pre.count (.inc d))
    (hd : RefOp.inc d ∉ ops) (h : runRefs [] ops = .ok kv) :
    refCount kv d = .err ∧ refDecrement kv d = .err := by
  obtain ⟨kv', h1, h2⟩ := C41_counts ops hpre
  rw [h] at h1
  cases h1
  have h3 := h2 d
  rw [if_pos (List.count_eq_zero.2 hd)] at h3
  refine ⟨h3, ?_⟩
  unfold refCount at h3
  unfold refDecrement
  cases hg : kv.get d with
  | none => rfl
  | some b =>
    rw [hg] at h3
    unfold bigEndianUint64 at h3
    dsimp only at h3
    split at h3 <;> cases h3

example : ∀ pre, pre <+: [RefOp.inc [1], .inc [2], .inc [1], .dec [1], .dec [2]] →
    ∀ d, pre.count (.dec d) ≤ pre.count (.inc d) := by
  intro pre hp d
  have hl := hp.length_le
  rw [List.prefix_iff_eq_take] at hp
  simp only [List.length_cons, List.length_nil] at hl
  have : pre.length = 0 ∨ pre.length = 1 ∨ pre.length = 2 ∨ pre.length = 3 ∨ pre.length = 4 ∨ pre.length = 5 := by omega
  rcases this with h | h | h | h | h | h <;> rw [h] at hp <;> subst hp <;> simp [List.count_cons] <;> grind

example : (do let kv ← runRefs [] [.inc [1], .inc [2], .inc [1], .dec [1], .dec [2]]; refCount kv [1]) = .ok 1 := by
  decide +kernel

end Willow.Props
