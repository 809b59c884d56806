import Verif.Lemmas.RangeEnd
import Verif.Lemmas.PropsRelativeAreas

/-! Where the subspace of an area is read from (for C28). -/

namespace Willow.Props
open Willow Spec

/-- What the subspace of an area at the path of the outer area is decoded from. -/
theorem decodeAreaInArea_subspace {ss : Codec} {ordS : Bytes → Bytes → Ordering} {p : PathParams} {inner outer x : Area} {enc : Bytes}
    (hv : ShortPath p inner.path) (hpath : inner.path = outer.path) (hsame : isSubspaceSame ordS inner outer = false)
    (h : encodeAreaInArea ss ordS p inner outer = .ok enc) (hx : decodeAreaInArea ss p enc outer = .ok x) :
    x.anySubspace = false ∧ decodeOrNil (ss.dec (encodeIntMax32 0 p.cc ++ ss.enc inner.subspace)) = .ok x.subspace := by
  obtain ⟨rel, hrel, rfl⟩ := encodeAreaInArea_inv h
  rw [hsame] at hx
  generalize decide (startDiffOf inner outer = inner.times.start - outer.times.start) = c at hx
  generalize decide (endDiffOf inner outer = endOf inner.times - inner.times.start) = d at hx
  obtain ⟨f1, f2, f3, f4, f5, f6, -⟩ := areaFlags_fields true inner.times.openEnd c d
    (width64 (startDiffOf inner outer).toNat) (width64 (endDiffOf inner outer).toNat)
  have hl : ∀ x : UInt64, getWidthMax64Int x.toNat = (encodeIntMax64 x.toNat).length := fun x =>
    (encodeIntMax64_length _).symm
  have hp := decodeRelativePath_encode hv hrel (ss.enc inner.subspace)
  rw [← hpath] at hp hrel
  have hlen := (relativeToItself hrel).2
  obtain ⟨first, hr, hf⟩ := relativeToItself_bytes hrel
  have hfrom : ∀ (b : UInt8) (a t : Bytes) (n : Nat), n = 1 + a.length → sliceFrom (b :: (a ++ t)) n = .ok t := by
    intro b a t n hn
    rw [← List.cons_append]
    exact sliceFrom_append _ _ _ (by simp; omega)
  unfold decodeAreaInArea at hx
  simp only [Res.ok_bind, Bool.not_false, f1, f2, f3, f4, f5, f6, Bool.false_eq_true, if_false, if_true, ← hpath] at hx
  generalize areaFlags true inner.times.openEnd c d (getWidthMax64Int (startDiffOf inner outer).toNat)
    (getWidthMax64Int (endDiffOf inner outer).toNat) = b at hx
  cases ho : inner.times.openEnd with
  | true =>
    simp only [ho, if_true, List.nil_append] at hx
    obtain ⟨s1, -, hx⟩ := Res.bind_eq_ok.1 hx
    obtain ⟨sd, -, hx⟩ := Res.bind_eq_ok.1 hx
    rw [hfrom _ _ _ _ (by rw [hl]), Res.ok_bind, hp, Res.ok_bind, hlen, Res.ok_bind, hr, List.append_assoc, ← List.append_assoc _ first,
      hfrom _ _ _ _ (by rw [hl, List.length_append, hf]; omega), Res.ok_bind] at hx
    obtain ⟨y, hy, hx⟩ := Res.bind_eq_ok.1 hx
    rw [← Res.ok.inj hx]
    exact ⟨rfl, hy⟩
  | false =>
    simp only [ho, Bool.false_eq_true, if_false] at hx
    obtain ⟨s1, -, hx⟩ := Res.bind_eq_ok.1 hx
    obtain ⟨sd, -, hx⟩ := Res.bind_eq_ok.1 hx
    obtain ⟨s2, -, hx⟩ := Res.bind_eq_ok.1 hx
    obtain ⟨ed, -, hx⟩ := Res.bind_eq_ok.1 hx
    rw [← List.append_assoc (encodeIntMax64 _) (encodeIntMax64 _),
      hfrom _ _ _ _ (by rw [hl, hl, List.length_append]; omega), Res.ok_bind, hp, Res.ok_bind, hlen, Res.ok_bind, hr, List.append_assoc first,
      ← List.append_assoc _ first, hfrom _ _ _ _ (by rw [hl, hl]; simp only [List.length_append, hf]; omega), Res.ok_bind] at hx
    obtain ⟨y, hy, hx⟩ := Res.bind_eq_ok.1 hx
    rw [← Res.ok.inj hx]
    exact ⟨rfl, hy⟩

theorem encodeIntMax32_zero (m : Nat) : encodeIntMax32 0 m = List.replicate (getWidthMax32Int m) 0 := by
  unfold encodeIntMax32
  rcases getWidthMax32Int_cases m with h | h | h | h <;> rw [h] <;> rfl

/-- Zeros in front push other bytes out of the first ones. -/
theorem zeros_shift {s : Bytes} {w : Nat} (hw : 0 < w) (h : (List.replicate w 0 ++ s).take s.length = s) : ∀ b ∈ s, b = 0 := by
  have key : ∀ i, i < s.length → s[i]? = some 0 := by
    intro i
    induction i using Nat.strongRecOn with
    | _ i ih =>
      intro hi
      rw [← h, List.getElem?_take, if_pos hi, List.getElem?_append, List.length_replicate]
      split
      · rename_i hlt
        rw [List.getElem?_replicate, if_pos hlt]
      · exact ih _ (by omega) (by omega)
  intro b hb
  obtain ⟨i, hi, rfl⟩ := List.mem_iff_getElem.1 hb
  have := key i hi
  rw [List.getElem?_eq_getElem hi] at this
  exact Option.some.inj this

end Willow.Props
