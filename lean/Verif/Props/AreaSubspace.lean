import Verif.Lemmas.AreaSubspace
import Verif.Props.RelativeAreas

/-! More of C28: which subspace an area in an area for any subspace is decoded to be for. -/

namespace Willow.Props
open Willow Spec

/-- C28 is violated for every area for one subspace at the path of an outer area for any, with any ids of a fixed number of
bytes that are not all zero: the position of the id is taken to be before where it is, at the zeros that say that no component of
the path follows, so that what is decoded is an area for another subspace. -/
theorem C28_violated_zeros (n : Nat) (ordS : Bytes → Bytes → Ordering) (p : PathParams) (inner outer x : Area) (enc : Bytes)
    (hv : ShortPath p inner.path) (hpath : inner.path = outer.path)
    (hi : inner.anySubspace = false) (ho : outer.anySubspace = true)
    (hn : inner.subspace.length = n) (hz : ∃ b ∈ inner.subspace, b ≠ 0) (hpos : ∃ pos, InArea inner pos)
    (he : encodeAreaInArea (fixedCodec n) ordS p inner outer = .ok enc) (hx : decodeAreaInArea (fixedCodec n) p enc outer = .ok x) :
    x.subspace ≠ inner.subspace ∧ ¬ SamePositions x inner := by
  obtain ⟨hany, hd⟩ := decodeAreaInArea_subspace hv hpath (by simp [isSubspaceSame, hi, ho]) he hx
  have hne : x.subspace ≠ inner.subspace := by
    intro heq
    rw [heq, encodeIntMax32_zero] at hd
    have hs : slice (List.replicate (getWidthMax32Int p.cc) 0 ++ inner.subspace) 0 n =
        .ok ((List.replicate (getWidthMax32Int p.cc) 0 ++ inner.subspace).take n) :=
      slice_take _ _ (by simp only [List.length_append]; omega)
    rw [show (fixedCodec n).dec (List.replicate (getWidthMax32Int p.cc) 0 ++ (fixedCodec n).enc inner.subspace) =
      slice (List.replicate (getWidthMax32Int p.cc) 0 ++ inner.subspace) 0 n from rfl, hs] at hd
    subst hn
    obtain ⟨b, hb, hb0⟩ := hz
    refine hb0 (zeros_shift ?_ (Res.ok.inj hd) b hb)
    rcases getWidthMax32Int_cases p.cc with h | h | h | h <;> omega
  refine ⟨hne, fun hsame => ?_⟩
  obtain ⟨pos, hp⟩ := hpos
  have h1 := (hsame pos).2 hp
  have e1 := h1.1.resolve_left (by simp [hany])
  have e2 := hp.1.resolve_left (by simp [hi])
  exact hne (e1.symm.trans e2)

example : ShortPath tinyParams [[5]] ∧
    encodeAreaInArea (fixedCodec 2) orderSubspace tinyParams ⟨[7, 8], false, [[5]], ⟨6, 0, true⟩⟩ ⟨[], true, [[5]], ⟨5, 0, true⟩⟩ =
      .ok [224, 1, 1, 0, 7, 8] ∧
    decodeAreaInArea (fixedCodec 2) tinyParams [224, 1, 1, 0, 7, 8] ⟨[], true, [[5]], ⟨5, 0, true⟩⟩ =
      .ok ⟨[0, 7], false, [[5]], ⟨6, reallyBigInt, true⟩⟩ :=
  ⟨⟨⟨by decide, by decide, by decide⟩, by decide, by decide⟩, by decide +kernel, by decide +kernel⟩

end Willow.Props
