import Verif.Model.Schemes
import Verif.Lemmas.Reads

/-! Lemmas for the encoding schemes that come with the code. -/

namespace Willow

theorem appendAll_value : ∀ (arr : Bytes) (len : Nat) (xs : List Bytes), len ≤ arr.length →
    (appendAll arr len xs).2 = arr.take len ++ xs.flatten
  | arr, len, [], _ => by simp [appendAll]
  | arr, len, x :: rest, h => by
    unfold appendAll
    split
    · rename_i hr
      rw [appendAll_value _ _ rest (by simp; omega)]
      have : (arr.take len ++ x ++ arr.drop (len + x.length)).take (len + x.length) = arr.take len ++ x := by
        rw [List.take_append_of_le_length (by simp; omega)]
        exact List.take_of_length_le (by simp; omega)
      rw [this]
      simp
    · simp

theorem appendAll_array : ∀ (arr : Bytes) (len : Nat) (xs : List Bytes), len ≤ arr.length →
    ∃ n, n ≤ xs.length ∧ len + ((xs.take n).flatten).length ≤ arr.length ∧
      (appendAll arr len xs).1 = arr.take len ++ (xs.take n).flatten ++ arr.drop (len + ((xs.take n).flatten).length) ∧
      ∀ x, xs[n]? = some x → arr.length < len + ((xs.take n).flatten).length + x.length
  | arr, len, [], h => ⟨0, by simp, by simpa using h, by simp [appendAll], by simp⟩
  | arr, len, x :: rest, h => by
    unfold appendAll
    split
    · rename_i hr
      obtain ⟨n, h1, h2, h3, h4⟩ := appendAll_array (arr.take len ++ x ++ arr.drop (len + x.length)) (len + x.length) rest
        (by simp; omega)
      have hl : (arr.take len ++ x ++ arr.drop (len + x.length)).length = arr.length := by simp; omega
      have ht : (arr.take len ++ x ++ arr.drop (len + x.length)).take (len + x.length) = arr.take len ++ x := by
        rw [List.take_append_of_le_length (by simp; omega)]
        exact List.take_of_length_le (by simp; omega)
      refine ⟨n + 1, by simp; omega, ?_, ?_, ?_⟩
      · rw [hl] at h2
        simp only [List.take_succ_cons, List.flatten_cons, List.length_append]
        omega
      · rw [h3, ht]
        simp only [List.take_succ_cons, List.flatten_cons, List.length_append, List.append_assoc]
        congr 3
        have hx : (arr.take len ++ x).length = len + x.length := by simp; omega
        rw [← List.append_assoc, ← hx, ← List.drop_drop, List.drop_left, List.drop_drop, hx, Nat.add_assoc]
      · intro y hy
        have := h4 y (by simpa using hy)
        rw [hl] at this
        simp only [List.take_succ_cons, List.flatten_cons, List.length_append]
        omega
    · rename_i hr
      exact ⟨0, by simp, by simpa using h, by simp, by simp; omega⟩

end Willow
