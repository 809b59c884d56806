import Verif.Lemmas.Ranges
import Verif.Lemmas.Paths
import Verif.Lemmas.Limits

/-! Property theorems C11-C15, C76, C77: successors, areas as ranges, path limits, distance. -/

namespace Willow.Props
open Willow Spec

/-- The limits used by the application (`/repo/PinaGoladaStore/StoreSchemes.go`):
50 components of 50 bytes and 50 bytes in total, 64-bit. -/
def appParams : PathParams := { bits := 64, cc := 50, cl := 50, pl := 50 }

/-- Small limits used for witnesses. -/
def tinyParams : PathParams := { bits := 8, cc := 2, cl := 3, pl := 6 }

/-! ## C12 -/

/-- C12 is violated: a valid path that is not the largest one makes `SuccessorPath` crash
(the incremented component is appended to the whole path instead of replacing its last). -/
theorem C12_violated_crash : ∃ (p : PathParams) (path q : Path),
    ValidPath p path ∧ ValidPath p q ∧ PathLt path q ∧ successorPath path p = .crash := by
  refine ⟨{ bits := 8, cc := 1, cl := 1, pl := 5 }, [[1]], [[2]], ⟨by decide, by decide, by decide⟩,
    ⟨by decide, by decide, by decide⟩, ?_, by decide⟩
  rw [← decides_path.lt_iff]; decide

/-- C12 is violated with the application's limits: a path of 50 one-byte components. -/
theorem C12_violated_app : ∃ (path q : Path),
    ValidPath appParams path ∧ ValidPath appParams q ∧ PathLt path q ∧
    successorPath path appParams = .crash := by
  refine ⟨List.replicate 50 [7], [[8]], ⟨by decide, by decide, by decide⟩,
    ⟨by decide, by decide, by decide⟩, ?_, by decide⟩
  rw [← decides_path.lt_iff]; decide

/-- C12, partial: with room for one more component the successor exists, is valid, greater,
and immediate. Missing: paths that already have the maximal number of components
(see `C12_violated_crash`, and `C12_successorPath_sound_partial` for what still holds). -/
theorem C12_successorPath_partial (p : PathParams) (path : Path) (hv : ValidPath p path)
    (hl : path.length < p.cc) :
    ∃ s, successorPath path p = .ok (some s) ∧ ValidPath p s ∧ PathLt path s ∧
      ∀ q, PathLt path q → ¬ PathLt q s := by
  refine ⟨_, successorPath_short hv hl, ⟨by simp; omega, ?_, ?_⟩, lexLt_append _ (by simp), ?_⟩
  · intro c hc
    simp only [List.mem_append, List.mem_singleton] at hc
    rcases hc with hc | rfl
    · exact hv.comp c hc
    · simp
  · have := hv.total
    simp only [pathBytes_append]
    simpa [pathBytes] using this
  · intro q hq
    exact snoc_nil_imm hq

example : ValidPath tinyParams [[1, 2, 3]] ∧ ([[1, 2, 3]] : Path).length < tinyParams.cc :=
  ⟨⟨by decide, by decide, by decide⟩, by decide⟩

/-- C12, partial: whenever `SuccessorPath` returns, its answer is right. Missing: that it
always returns; limits that allow no component at all or equal the largest value of the type. -/
theorem C12_successorPath_sound_partial (p : PathParams) (hw : NoWrap p) (hcc : 0 < p.cc) (path : Path)
    (hv : ValidPath p path) (r : Option Path) (h : successorPath path p = .ok r) :
    (∀ s, r = some s → ValidPath p s ∧ PathLt path s ∧ ∀ q, ValidPath p q → PathLt path q → ¬ PathLt q s) ∧
    (r = none → ∀ q, ValidPath p q → ¬ PathLt path q) := by
  by_cases hl : path.length < p.cc
  · obtain ⟨s, h1, h2, h3, h4⟩ := C12_successorPath_partial p path hv hl
    rw [h] at h1
    cases h1
    refine ⟨fun s' hs' => ?_, by simp⟩
    cases hs'
    exact ⟨h2, h3, fun q _ => h4 q⟩
  · have hlen : path.length = p.cc := by have := hv.count; omega
    unfold successorPath at h
    rw [if_neg (by omega), conv_of_le hv.count p.hcc, if_neg (by omega)] at h
    have := successorPathLoop_spec hw hv hlen path.length (by omega) (by simp) r h
    obtain ⟨hs, hval⟩ := this
    cases hs with
    | none hm =>
      refine ⟨by simp, fun _ q hq hlt => ?_⟩
      have hpre : path <+: q := maximal_prefix path q hm hq.comp (pathLt_strictTotal.asymm hlt)
      have : path = q := hpre.eq_of_length_le (by have := hq.count; omega)
      subst this
      exact pathLt_strictTotal.irrefl _ hlt
    | some pre post c c' hpath hsu hm =>
      refine ⟨fun s hs => ?_, by simp⟩
      cases hs
      refine ⟨hval _ rfl, ?_, fun q hq hlt h2 => ?_⟩
      · rw [hpath]; exact ext_lt_succ (post := post) hsu.lt (List.prefix_refl _)
      · have hpre : path <+: q := by
          rw [hpath]
          exact between_succ hsu hm hq.comp (by rw [← hpath]; exact pathLt_strictTotal.asymm hlt) h2
        have : path = q := hpre.eq_of_length_le (by have := hq.count; omega)
        subst this
        exact pathLt_strictTotal.irrefl _ hlt

example : NoWrap tinyParams ∧ ValidPath tinyParams [[1], [255, 255, 255]] ∧
    successorPath [[1], [255, 255, 255]] tinyParams = .ok (some [[1, 0]]) :=
  ⟨⟨by decide, by decide⟩, ⟨by decide, by decide, by decide⟩, by decide⟩

/-- C12: `SuccessorPath` returns (otherwise it crashes) exactly for the valid paths with room for one
more component, the comfortable ones, and those of largest components only. -/
theorem C12_exact (p : PathParams) (hw : NoWrap p) (path : Path) (hv : ValidPath p path) :
    ((∃ r, successorPath path p = .ok r) ↔
      path.length < p.cc ∨ Comfortable p path ∨ ∀ c ∈ path, c = List.replicate p.cl 255) ∧
    ((∃ r, successorPath path p = .ok r) ∨ successorPath path p = .crash) := by
  by_cases hl : path.length < p.cc
  · exact ⟨⟨fun _ => .inl hl, fun _ => ⟨_, successorPath_short hv hl⟩⟩, .inl ⟨_, successorPath_short hv hl⟩⟩
  · have hlen : path.length = p.cc := by have := hv.count; omega
    have hlargest : (∀ c ∈ path, c = List.replicate p.cl 255) → ∃ r, successorPath path p = .ok r := by
      intro h
      by_cases hne : path = []
      · subst hne; exact ⟨_, rfl⟩
      · exact ⟨_, successorPath_largest hne hlen h⟩
    have hcomf : Comfortable p path → ∃ r, successorPath path p = .ok r := by
      intro h
      obtain ⟨pre, c, post, rfl, hc, ht, hpost⟩ := h.room
      exact ⟨_, successorPath_room hv hc ht hpost hlen⟩
    have hcrash : successorPath path p = .crash ∨ Comfortable p path ∨ ∀ c ∈ path, c = List.replicate p.cl 255 := by
      rcases pathKind hv with h | h | ⟨pre, c, hp, hc, ht⟩ | ⟨pre, post, x, b, k, hp, hb, hl', hpost⟩
      · exact .inr (.inl h)
      · exact .inr (.inr h)
      · rw [hp] at ht hlen ⊢
        exact .inl (successorPath_noroom hw hc ht hlen)
      · rw [hp] at hlen ⊢
        exact .inl (successorPath_full hb hl' hpost hw hlen)
    refine ⟨⟨fun ⟨r, h⟩ => ?_, fun h => ?_⟩, ?_⟩
    · rcases hcrash with h' | h' | h'
      · rw [h'] at h; cases h
      · exact .inr (.inl h')
      · exact .inr (.inr h')
    · rcases h with h | h | h
      · exact absurd h hl
      · exact hcomf h
      · exact hlargest h
    · rcases hcrash with h' | h' | h'
      · exact .inr h'
      · exact .inl (hcomf h')
      · exact .inl (hlargest h')

example : NoWrap tinyParams ∧ ValidPath tinyParams [[1], [2, 2, 2]] ∧ successorPath [[1], [2, 2, 2]] tinyParams = .crash :=
  ⟨⟨by decide, by decide⟩, ⟨by decide, by decide, by decide⟩, by decide⟩

/-- C12 is violated: if the limit of the number of components is the largest value of its type, the
count wraps around in `PathAppend` (`/repo/utils/successor.go:52-66`): every valid path of the full number of components whose
last one has the full length and can be counted up gets a "successor" of one component too many,
if the lengths allow it. -/
theorem C12_violated_wrap (p : PathParams) (hcc : p.cc + 1 = 2 ^ p.bits) (path : Path) (hl : path.length = p.cc) (c : Bytes)
    (hlast : path.getLast? = some c) (hc : c.length = p.cl) (hm : c ≠ List.replicate p.cl 255)
    (ht : pathBytes path + p.cl ≤ p.pl) :
    ∃ s, successorPath path p = .ok (some s) ∧ s.length = p.cc + 1 ∧ ¬ ValidPath p s := by
  obtain ⟨pre, rfl⟩ := List.getLast?_eq_some_iff.1 hlast
  obtain ⟨d, hd⟩ := successorPath_wraps hcc hl hc hm ht
  have hlen : (pre ++ [c] ++ [d]).length = p.cc + 1 := by rw [List.length_append, hl]; rfl
  refine ⟨_, hd, hlen, fun h => ?_⟩
  have := h.count
  omega

example : ∃ (p : PathParams) (path : Path), p.cc + 1 = 2 ^ p.bits ∧ ValidPath p path ∧ path.length = p.cc ∧
    path.getLast? = some [2] ∧ [2].length = p.cl ∧ [2] ≠ List.replicate p.cl 255 ∧ pathBytes path + p.cl ≤ p.pl ∧
    successorPath path p = .ok (some [[], [], [2], [3]]) :=
  ⟨{ bits := 2, cc := 3, cl := 1, pl := 3 }, [[], [], [2]], by decide, ⟨by decide, by decide, by decide⟩, by decide, by decide,
    by decide, by decide, by decide, by decide⟩

/-! ## C13 -/

/-- C13 is violated: a valid path with the maximal total length makes `SuccessorPrefix`
crash, although later paths exist. -/
theorem C13_violated_crash : ∃ (p : PathParams) (path q : Path),
    ValidPath p path ∧ ValidPath p q ∧ PathLt path q ∧ ¬ path <+: q ∧ successorPrefix path p = .crash := by
  refine ⟨appParams, [List.replicate 25 1, List.replicate 25 1], [[2]], ⟨by decide, by decide, by decide⟩,
    ⟨by decide, by decide, by decide⟩, ?_, by decide, by decide⟩
  rw [← decides_path.lt_iff]; decide

/-- What the prefix successor of `path` must be: beyond every extension of the path, and only
extensions below it. -/
structure IsPrefixSuccessor (p : PathParams) (path s : Path) : Prop where
  valid : ValidPath p s
  lt : PathLt path s
  beyond : ∀ q, path <+: q → PathLt q s
  only : ∀ q, ValidPath p q → ¬ PathLt q path → PathLt q s → path <+: q

/-- C13, partial: whenever `SuccessorPrefix` returns, its answer is right. Missing: that it
returns for paths of maximal total length; limits equal to the largest value of the type. -/
theorem C13_successorPrefix_sound_partial (p : PathParams) (hw : NoWrap p) (path : Path)
    (hv : ValidPath p path) (r : Option Path) (h : successorPrefix path p = .ok r) :
    (∀ s, r = some s → IsPrefixSuccessor p path s) ∧
    (r = none → ∀ q, ValidPath p q → ¬ PathLt q path → path <+: q) := by
  have hs := successorPrefix_spec hv h
  cases hs with
  | none hm =>
    exact ⟨by simp, fun _ q hq hle => maximal_prefix path q hm hq.comp hle⟩
  | some pre post c c' hpath hsu hm =>
    refine ⟨fun s hs => ?_, by simp⟩
    cases hs
    refine ⟨successorPrefix_valid hw hv h, ?_, ?_, ?_⟩
    · rw [hpath]; exact ext_lt_succ (post := post) hsu.lt (List.prefix_refl _)
    · intro q hq; rw [hpath] at hq; exact ext_lt_succ hsu.lt hq
    · intro q hq h1 h2
      rw [hpath] at h1 ⊢
      exact between_succ hsu hm hq.comp h1 h2

/-- C13, partial: `SuccessorPrefix` returns for every valid path below the maximal total
length. -/
theorem C13_successorPrefix_returns_partial (p : PathParams) (path : Path) (hv : ValidPath p path)
    (ht : pathBytes path < p.pl) : ∃ r, successorPrefix path p = .ok r := successorPrefix_total hv ht

/-- C13: `SuccessorPrefix` returns (otherwise it crashes) exactly for the valid paths below the maximal
total length and those without a last component with room for one more byte. -/
theorem C13_exact (p : PathParams) (hw : NoWrap p) (path : Path) (hv : ValidPath p path) :
    ((∃ r, successorPrefix path p = .ok r) ↔
      pathBytes path < p.pl ∨ ∀ c, path.getLast? = some c → c.length = p.cl) ∧
    ((∃ r, successorPrefix path p = .ok r) ∨ successorPrefix path p = .crash) := by
  by_cases ht : pathBytes path < p.pl
  · have := successorPrefix_total hv ht
    exact ⟨⟨fun _ => .inl ht, fun _ => this⟩, .inl this⟩
  · have htot : pathBytes path = p.pl := by have := hv.total; omega
    by_cases hlast : ∀ c, path.getLast? = some c → c.length = p.cl
    · have hr : ∃ r, successorPrefix path p = .ok r := by
        rcases pathKind hv with h | h | ⟨pre, c, hp, hc, _⟩ | ⟨pre, post, x, b, k, hp, hb, hl', hpost⟩
        · exact (successorPrefix_kept (.inl h)).1
        · exact (successorPrefix_kept (.inr h)).1
        · have := hlast c (by simp [hp])
          omega
        · rw [hp] at hv ⊢
          exact ⟨_, successorPrefix_full hb hl' hpost hv⟩
      exact ⟨⟨fun _ => .inr hlast, fun _ => hr⟩, .inl hr⟩
    · have hcrash : successorPrefix path p = .crash := by
        rcases List.eq_nil_or_concat path with h | ⟨pre, c, h⟩
        · subst h
          exact absurd (by simp) hlast
        · rw [List.concat_eq_append] at h
          subst h
          have hc : c.length < p.cl := by
            have h1 := hv.comp c (by simp)
            have h2 : c.length ≠ p.cl := fun he => hlast fun d hd => by simp at hd; rw [← hd]; exact he
            omega
          exact successorPrefix_noroom hw hc htot
      refine ⟨⟨fun ⟨r, h⟩ => ?_, fun h => ?_⟩, .inr hcrash⟩
      · rw [hcrash] at h; cases h
      · rcases h with h | h
        · exact absurd h ht
        · exact absurd h hlast

example : NoWrap tinyParams ∧ ValidPath tinyParams [[1], [255, 255, 255]] ∧
    pathBytes [[1], [255, 255, 255]] < tinyParams.pl ∧
    successorPrefix [[1], [255, 255, 255]] tinyParams = .ok (some [[1, 0]]) :=
  ⟨⟨by decide, by decide⟩, ⟨by decide, by decide, by decide⟩, by decide, by decide⟩

/-- C13 is violated: if the limit of the total length is the largest value of its type, the sum of the
lengths wraps around in `PathAppend` (`/repo/utils/successor.go:52-66`): every valid path of the full total length with room in
its last component gets a prefix successor that is longer than the limit. -/
theorem C13_violated_wrap (p : PathParams) (hpl : p.pl + 1 = 2 ^ p.bits) (path : Path) (hv : ValidPath p path)
    (ht : pathBytes path = p.pl) (c : Bytes) (hlast : path.getLast? = some c) (hc : c.length < p.cl) :
    ∃ s, successorPrefix path p = .ok (some s) ∧ ¬ ValidPath p s := by
  obtain ⟨pre, rfl⟩ := List.getLast?_eq_some_iff.1 hlast
  refine ⟨_, successorPrefix_wraps hpl hc hv ht, fun h => ?_⟩
  have h1 := h.total
  rw [pathBytes_append] at h1 ht
  simp [pathBytes] at h1 ht
  omega

example : ∃ (p : PathParams) (path : Path), p.pl + 1 = 2 ^ p.bits ∧ ValidPath p path ∧ pathBytes path = p.pl ∧
    path.getLast? = some [2] ∧ [2].length < p.cl ∧ successorPrefix path p = .ok (some [[1, 1], [2, 0]]) :=
  ⟨{ bits := 2, cc := 2, cl := 2, pl := 3 }, [[1, 1], [2]], by decide, ⟨by decide, by decide, by decide⟩, by decide, by decide,
    by decide, by decide⟩

/-! ## C14 -/

/-- C14: the successor of a subspace id is the next subspace id. -/
theorem C14_successorSubspaceId (s : Bytes) :
    BytesLt s (successorSubspaceId s) ∧ ∀ t, BytesLt s t → ¬ BytesLt t (successorSubspaceId s) :=
  ⟨lexLt_append s (by simp), fun t h => bytesLt_snoc_zero_imm s t h⟩

example : successorSubspaceId [1, 255] = [1, 255, 0] ∧ orderSubspace [1, 255] (successorSubspaceId [1, 255]) = .lt := by decide

/-- C14: the range from an id to its successor contains exactly the id, for the comparison
used by the store. -/
theorem C14_range_singleton (s t : Bytes) :
    isIncludedRange orderSubspace ⟨s, successorSubspaceId s, false⟩ t = true ↔ t = s := by
  rw [isIncludedRange_iff decides_subspace]
  have h := C14_successorSubspaceId s
  constructor
  · rintro ⟨h1, h2 | h2⟩
    · simp at h2
    · rcases bytesLt_strictTotal.tri t s with h' | h' | h'
      · exact absurd h' h1
      · exact h'
      · exact absurd h2 (h.2 t h')
  · rintro rfl
    exact ⟨bytesLt_strictTotal.irrefl _, .inr h.1⟩

example : isIncludedRange orderSubspace ⟨[1, 255], successorSubspaceId [1, 255], false⟩ [1, 255] = true ∧
    isIncludedRange orderSubspace ⟨[1, 255], successorSubspaceId [1, 255], false⟩ [1, 255, 0] = false := by decide

/-! ## C15 -/

/-- C15 is violated: the prefix successor of a one-component path of full length changes the
caller's bytes. -/
theorem C15_violated : ∃ (p : PathParams) (path : Path),
    ValidPath p path ∧ successorPrefixMutated path p ≠ path :=
  ⟨tinyParams, [[1, 2, 3]], ⟨by decide, by decide, by decide⟩, by decide⟩

/-- C15, partial: the caller's path is unchanged if its last component is shorter than the
limit. Missing: full-length last components (see `C15_violated`). -/
theorem C15_successorPrefix_unchanged_partial (p : PathParams) (path : Path)
    (h : ∀ c, path.getLast? = some c → c.length < p.cl) : successorPrefixMutated path p = path :=
  successorPrefixMutated_short h

example : ∀ c, ([[1, 2, 3], [4]] : Path).getLast? = some c → c.length < tinyParams.cl := by decide

/-! ## C11 -/

/-- C11 is violated: because the start of the path range shares its bytes with the argument
of `SuccessorPrefix`, the range of this area is empty. -/
theorem C11_violated : ∃ (p : PathParams) (a : Area) (r : Range3d) (x : Position),
    ValidPath p a.path ∧ ValidPath p x.path ∧ areaTo3dRange [] successorSubspaceId p a = .ok r ∧
    InArea a x ∧ ¬ InRange3d r x := by
  refine ⟨tinyParams, ⟨[7], false, [[1, 2, 3]], ⟨0, 0, true⟩⟩, _, ⟨[7], [[1, 2, 3]], 5⟩,
    ⟨by decide, by decide, by decide⟩, ⟨by decide, by decide, by decide⟩, rfl, ?_, ?_⟩
  · rw [← isIncludedArea_iff decides_subspace]; decide
  · rw [← isIncluded3d_iff decides_subspace]; decide

/-- C11 is violated: the conversion can crash. -/
theorem C11_violated_crash : ∃ (a : Area), ValidPath appParams a.path ∧
    areaTo3dRange [] successorSubspaceId appParams a = .crash :=
  ⟨⟨[7], false, [List.replicate 25 1, List.replicate 25 1], ⟨0, 0, true⟩⟩,
    ⟨by decide, by decide, by decide⟩, by decide⟩

/-- C11, partial: membership is preserved when the area's path is comfortable (largest components at
its end left out, there is a last component with room for one more byte in it and in the total) or
has largest components only (full length, all 255; the empty path is one). Missing: other paths
(see the violations and `C11_exact`). The subspace options are any minimal id and any function
giving the next id. -/
theorem C11_areaTo3dRange_partial (minimal : Bytes) (succ : Bytes → Bytes) (p : PathParams) (a : Area)
    (hmin : ∀ s, ¬ BytesLt s minimal)
    (hsucc : ∀ s, BytesLt s (succ s) ∧ ∀ t, BytesLt s t → ¬ BytesLt t (succ s))
    (hv : ValidPath p a.path) (hk : Comfortable p a.path ∨ ∀ c ∈ a.path, c = List.replicate p.cl 255) :
    ∃ r, areaTo3dRange minimal succ p a = .ok r ∧
      ∀ x : Position, (∀ c ∈ x.path, c.length ≤ p.cl) → (InArea a x ↔ InRange3d r x) := by
  obtain ⟨⟨e, he⟩, hmut⟩ := successorPrefix_kept hk
  have hs := successorPrefix_spec hv he
  refine ⟨_, by unfold areaTo3dRange; rw [he]; rfl, fun x hx => ?_⟩
  have hsub : (a.anySubspace = true ∨ x.subspace = a.subspace) ↔
      InRange BytesLt (if (!a.anySubspace) = true then (⟨a.subspace, succ a.subspace, false⟩ : GRange Bytes)
        else ⟨minimal, [], true⟩) x.subspace := by
    cases a.anySubspace with
    | true => simp [InRange, hmin]
    | false =>
      simp only [Bool.false_eq_true, false_or, Bool.not_false, if_true, InRange]
      constructor
      · intro h; rw [h]; exact ⟨bytesLt_strictTotal.irrefl _, (hsucc _).1⟩
      · rintro ⟨h1, h2⟩
        rcases bytesLt_strictTotal.tri x.subspace a.subspace with h' | h' | h'
        · exact absurd h' h1
        · exact h'
        · exact absurd h2 ((hsucc _).2 _ h')
  have hpath : a.path <+: x.path ↔
      InRange PathLt ⟨a.path, e.getD [], (e.getD []).length == 0⟩ x.path := by
    cases hs with
    | none hm =>
      simp only [InRange, Option.getD_none, List.length_nil, beq_self_eq_true, true_or, and_true]
      exact ⟨fun h => prefix_not_lt bytesLt_strictTotal h, fun h => maximal_prefix _ _ hm hx h⟩
    | some pre post c c' hpath hsu hm =>
      have : ((pre ++ [c']).length == 0) = false := by simp
      simp only [InRange, Option.getD_some, this, Bool.false_eq_true, false_or]
      constructor
      · intro h
        refine ⟨prefix_not_lt bytesLt_strictTotal h, ?_⟩
        rw [hpath] at h
        exact ext_lt_succ hsu.lt h
      · rintro ⟨h1, h2⟩
        rw [hpath] at h1 ⊢
        exact between_succ hsu hm hx h1 h2
  simp only [InArea, InRange3d, hsub, hpath, hmut]

example : (∀ s, ¬ BytesLt s []) ∧
    (∀ s, BytesLt s (successorSubspaceId s) ∧ ∀ t, BytesLt s t → ¬ BytesLt t (successorSubspaceId s)) ∧
    ValidPath tinyParams [[1, 2, 3], [4]] ∧ Comfortable tinyParams [[1, 2, 3], [4]] :=
  ⟨fun _ => lexLt_nil _, C14_successorSubspaceId, ⟨by decide, by decide, by decide⟩, ⟨by decide, by decide, by decide⟩,
    [[1, 2, 3]], [4], [], rfl, by decide, by decide, by simp⟩

/-- C11: the conversion of an area (with some times in it) to a range returns with the right
positions exactly for comfortable paths and paths of largest components only. -/
theorem C11_exact (p : PathParams) (hw : NoWrap p) (a : Area) (hv : ValidPath p a.path) (hts : ∃ t, InRange TimeLt a.times t) :
    (∃ r, areaTo3dRange [] successorSubspaceId p a = .ok r ∧ ∀ x : Position, ValidPath p x.path → (InArea a x ↔ InRange3d r x)) ↔
      Comfortable p a.path ∨ ∀ c ∈ a.path, c = List.replicate p.cl 255 := by
  constructor
  · rintro ⟨r, h1, h2⟩
    unfold areaTo3dRange at h1
    rcases pathKind hv with h | h | ⟨pre, c, hp, hc, ht⟩ | ⟨pre, post, x, b, k, hp, hb, hlen, hpost⟩
    · exact .inl h
    · exact .inr h
    · rw [hp] at ht
      rw [hp, successorPrefix_noroom hw hc ht] at h1
      cases h1
    · exfalso
      obtain ⟨t, ht⟩ := hts
      have hmut : successorPrefixMutated a.path p = pre ++ (x ++ (b + 1) :: List.replicate k 255) :: post := by
        rw [hp]; exact successorPrefixMutated_full hb hlen hpost
      have h3 := (h2 ⟨a.subspace, a.path, t⟩ hv).1 ⟨.inr rfl, List.prefix_refl _, ht⟩
      have hsp := successorPrefix_full hb hlen hpost (hp ▸ hv)
      rw [← hp] at hsp
      rw [hsp] at h1
      cases h1
      have h4 := h3.2.1.1
      simp only [hmut] at h4
      apply h4
      rw [hp, PathLt, lexLt_append_left bytesLt_strictTotal.irrefl]
      refine .inl ?_
      rw [BytesLt, lexLt_append_left u8_strictTotal.irrefl]
      exact .inl (u8_succ_lt hb)
  · intro h
    obtain ⟨r, h1, h2⟩ := C11_areaTo3dRange_partial [] successorSubspaceId p a (fun _ => lexLt_nil _) C14_successorSubspaceId hv h
    exact ⟨r, h1, fun x hx => h2 x hx.comp⟩

example : NoWrap tinyParams ∧ ValidPath tinyParams [[1], [255, 255, 255]] ∧ InRange TimeLt ⟨0, 0, true⟩ 3 :=
  ⟨⟨by decide, by decide⟩, ⟨by decide, by decide, by decide⟩, by simp [TimeLt], .inl rfl⟩

/-! ## C76 -/

/-- C76 is violated: with limits of 2^63 or more ("unlimited" in a 64-bit type) even the empty
path is rejected. -/
theorem C76_violated : ∃ p : PathParams, ValidPath p [] ∧ isValidPath [] p = false :=
  ⟨{ bits := 64, cc := 2 ^ 64 - 1, cl := 2 ^ 64 - 1, pl := 2 ^ 64 - 1 },
    ⟨by decide, by decide, by decide⟩, by decide⟩

/-- C76, partial: the check is right when the limits fit in a signed 64-bit integer (always so
for 8, 16 and 32-bit types). Missing: larger limits (see `C76_violated`). -/
theorem C76_isValidPath_partial (p : PathParams) (h1 : p.cc < 2 ^ 63) (h2 : p.cl < 2 ^ 63)
    (h3 : p.pl < 2 ^ 63) (path : Path) : isValidPath path p = true ↔ ValidPath p path := by
  unfold isValidPath
  rw [goInt_of_lt h1, goInt_of_lt h2, goInt_of_lt h3]
  have hL := isValidPathLoop_eq p.cl 0 path
  split
  · simp only [Bool.false_eq_true, false_iff]
    intro hv; have := hv.count; omega
  · split
    · rename_i hn
      simp only [Bool.false_eq_true, false_iff]
      intro hv
      rw [hL.1 hv.comp] at hn
      simp at hn
    · rename_i total hs
      by_cases hc : ∀ c ∈ path, c.length ≤ p.cl
      · rw [hL.1 hc] at hs
        simp at hs
        split
        · simp only [Bool.false_eq_true, false_iff]
          intro hv; have := hv.total; omega
        · simp only [true_iff]
          exact ⟨by omega, hc, by omega⟩
      · rw [hL.2 hc] at hs
        simp at hs

example : tinyParams.cc < 2 ^ 63 ∧ isValidPath [[1, 2, 3], [4, 5, 6]] tinyParams = true ∧
    isValidPath [[1, 2, 3, 4]] tinyParams = false := by decide

/-- C76, exactly what is accepted: the valid paths, if the limits of the number of components and of
the total length are below 2^63, and so is the limit of the length of components or the path is
empty. -/
theorem C76_exact (p : PathParams) (path : Path) :
    isValidPath path p = true ↔
      ValidPath p path ∧ p.cc < 2 ^ 63 ∧ p.pl < 2 ^ 63 ∧ (p.cl < 2 ^ 63 ∨ path = []) := by
  have hneg : ∀ {x : Nat}, x < 2 ^ p.bits → ¬ x < 2 ^ 63 → goInt x < 0 := by
    intro x hx hn
    have := Nat.pow_le_pow_right (n := 2) (by decide) p.hbits
    unfold goInt
    rw [if_neg hn]
    omega
  by_cases h1 : p.cc < 2 ^ 63
  · by_cases h3 : p.pl < 2 ^ 63
    · by_cases h2 : p.cl < 2 ^ 63
      · rw [C76_isValidPath_partial p h1 h2 h3 path]
        simp [h1, h2, h3]
      · cases path with
        | nil =>
          have hv : ValidPath p [] := ⟨by simp, by simp, by simp [pathBytes]⟩
          simp only [hv, h1, h3, true_and, or_true, iff_true]
          unfold isValidPath
          rw [goInt_of_lt h1, goInt_of_lt h3]
          simp [isValidPathLoop]
        | cons c cs =>
          simp only [h2, reduceCtorEq, or_self, and_false, iff_false, Bool.not_eq_true]
          have hlt := hneg p.hcl h2
          have hnone : isValidPathLoop (goInt p.cl) 0 (c :: cs) = none := if_pos (by omega)
          unfold isValidPath
          rw [hnone]
          simp
    · simp only [h3, false_and, and_false, iff_false, Bool.not_eq_true]
      unfold isValidPath
      have := hneg p.hpl h3
      split
      · rfl
      · split
        · rfl
        · rw [if_pos (by omega)]
  · simp only [h1, false_and, and_false, iff_false, Bool.not_eq_true]
    unfold isValidPath
    have := hneg p.hcc h1
    rw [if_pos (by omega)]

example : ∃ p : PathParams, ¬ p.cl < 2 ^ 63 ∧ isValidPath [] p = true ∧ ValidPath p [[1]] ∧ isValidPath [[1]] p = false :=
  ⟨{ bits := 64, cc := 5, cl := 2 ^ 64 - 1, pl := 5 }, by decide, by decide, ⟨by decide, by decide, by decide⟩, by decide⟩

/-! ## C77 -/

/-- C77 is violated: distinct paths at distance zero. -/
theorem C77_violated : ∃ a b : Path, a ≠ b ∧ pathDistance a b = 0 :=
  ⟨[[0]], [], by decide, by simp [pathDistance, bytesDistance]⟩

/-- C77: the distance does not depend on the argument order. -/
theorem C77_pathDistance_comm (a b : Path) : pathDistance a b = pathDistance b a := pathDistance_comm a b

example : pathDistance [[1, 2], [3]] [[1, 5]] = pathDistance [[1, 5]] [[1, 2], [3]] ∧ pathDistance [[1, 2], [3]] [[1, 5]] ≠ 0 := by
  simp [pathDistance, bytesDistance]

/-- C77, partial: the distance is zero exactly for equal paths, among paths with the same
component lengths. Missing: paths of different shapes (see `C77_violated`). -/
theorem C77_pathDistance_zero_partial (a b : Path) (h : a.map List.length = b.map List.length) :
    pathDistance a b = 0 ↔ a = b :=
  ⟨pathDistance_zero a b h, fun h => h ▸ pathDistance_self a⟩

example : ([[1, 2], [3]] : Path).map List.length = ([[1, 5], [9]] : Path).map List.length := by decide

/-- C77, exactly which paths are told apart: the distance is zero if and only if the paths have the
same bytes everywhere when missing components count as empty and missing bytes as zero. It is never
negative. -/
theorem C77_exact (a b : Path) :
    0 ≤ pathDistance a b ∧
    (pathDistance a b = 0 ↔ ∀ i j, (a.getD i []).getD j 0 = (b.getD i []).getD j 0) :=
  ⟨pathDistance_nonneg a b, pathDistance_eq_zero a b⟩

example : pathDistance [[1, 0], [], [0]] [[1]] = 0 ∧ pathDistance [[1, 0], [], [2]] [[1]] = 4 := by
  simp [pathDistance, bytesDistance]

end Willow.Props
