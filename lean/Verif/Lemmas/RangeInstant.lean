import Verif.Model.Relative
import Verif.Lemmas.Relative

/-! Ranges relative to a range of one instant. -/

namespace Willow

theorem absDiff_instant (s e : UInt64) (h : s.toNat + 256 < 2 ^ 64) (he : e.toNat = s.toNat + 1) :
    absDiffUint64 e s = 1 ∧ absDiffUint64 e e = 0 ∧ absDiffUint64 (s + 256) s = 256 ∧ absDiffUint64 (s + 256) e = 255 ∧ e ≤ s + 256 := by
  have h1 : (s + 256).toNat = s.toNat + 256 := by
    rw [UInt64.toNat_add]
    exact Nat.mod_eq_of_lt h
  refine ⟨?_, ?_, ?_, ?_, by rw [UInt64.le_iff_toNat_le]; omega⟩ <;> unfold absDiffUint64
  · rw [if_neg (by rw [UInt64.lt_iff_toNat_lt]; omega)]
    apply UInt64.toNat_inj.1
    rw [UInt64.toNat_sub_of_le _ _ (by rw [UInt64.le_iff_toNat_le]; omega)]
    show _ = 1
    omega
  · rw [if_neg (by rw [UInt64.lt_iff_toNat_lt]; omega)]
    simp
  · rw [if_neg (by rw [UInt64.lt_iff_toNat_lt]; omega)]
    apply UInt64.toNat_inj.1
    rw [UInt64.toNat_sub_of_le _ _ (by rw [UInt64.le_iff_toNat_le]; omega)]
    show _ = 256
    omega
  · rw [if_neg (by rw [UInt64.lt_iff_toNat_lt]; omega)]
    apply UInt64.toNat_inj.1
    rw [UInt64.toNat_sub_of_le _ _ (by rw [UInt64.le_iff_toNat_le]; omega)]
    show _ = 255
    omega

theorem rangeSecondByte_instant (rs s e : UInt64) (h : s.toNat + 256 < 2 ^ 64) (he : e.toNat = s.toNat + 1) :
    rangeSecondByte rs s e e = rangeSecondByte rs s e (s + 256) := by
  obtain ⟨h1, h2, h3, h4, h5⟩ := absDiff_instant s e h he
  unfold rangeSecondByte
  rw [h1, h2, h3, h4]
  have m1 : minU64 1 0 = 0 := by decide
  have m2 : minU64 256 255 = 255 := by decide
  have w1 : getWidthMax64Int (0 : UInt64).toNat = 1 := by decide
  have w2 : getWidthMax64Int (255 : UInt64).toNat = 1 := by decide
  have n1 : ¬ (1 : UInt64) ≤ 0 := by decide
  have n2 : ¬ (256 : UInt64) ≤ 255 := by decide
  have g1 : e ≤ e := by rw [UInt64.le_iff_toNat_le]; omega
  have g2 : s ≤ s + 256 ∧ s ≤ e := by
    have := UInt64.le_iff_toNat_le.1 h5
    constructor <;> rw [UInt64.le_iff_toNat_le] <;> omega
  simp only [m1, m2, w1, w2, if_neg n1, if_neg n2, ge_iff_le, if_pos h5, if_pos g1, if_pos g2.1, if_pos g2.2]

theorem encodeRange3dRelative_instant (ss : Codec) (ordS : Bytes → Bytes → Ordering) (p : PathParams) (r ref : Range3d)
    (h1 : ref.time.openEnd = false) (h2 : ref.time.start.toNat + 256 < 2 ^ 64) (h3 : ref.time.stop.toNat = ref.time.start.toNat + 1)
    (x : Bytes) (hx : encodeRange3dRelative ss ordS p { r with time := ⟨r.time.start, ref.time.stop, false⟩ } ref = .ok x) :
    encodeRange3dRelative ss ordS p { r with time := ⟨r.time.start, ref.time.start + 256, false⟩ } ref = .ok (x ++ [0]) := by
  obtain ⟨a1, a2, a3, a4, a5⟩ := absDiff_instant ref.time.start ref.time.stop h2 h3
  have hb := rangeSecondByte_instant r.time.start ref.time.start ref.time.stop h2 h3
  unfold encodeRange3dRelative at hx ⊢
  simp only [h1, Bool.and_false, Bool.false_eq_true, if_false, a1, a2, a3, a4, ← hb] at hx ⊢
  obtain ⟨y, hy, hx⟩ := Res.bind_eq_ok.1 hx
  obtain ⟨z, hz, hx⟩ := Res.bind_eq_ok.1 hx
  rw [hy, Res.ok_bind, hz, Res.ok_bind, ← Res.ok.inj hx]
  have e1 : encodeIntMax64 (1 : UInt64).toNat = [1] := by decide
  have e2 : encodeIntMax64 (256 : UInt64).toNat = [1, 0] := by decide
  rw [e1, e2]
  simp only [List.append_assoc, List.cons_append, List.nil_append]
end Willow
