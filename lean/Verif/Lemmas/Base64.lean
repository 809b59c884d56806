import Verif.Spec.Json
import Verif.Model.Helpers

/-! Base 64. -/

namespace Willow

open Spec

theorem base64Char_place {n : Nat} (h : n < 64) : base64Alphabet[n]? = some (base64Char n) := by
  have key : ∀ a : Fin 64, base64Alphabet[(a : Nat)]? = some (base64Char a) := by decide +kernel
  exact key ⟨n, h⟩

/-- The places of the characters, and the number of `=` signs. -/
def base64Places : Bytes → List Nat × Nat
  | a :: b :: c :: rest =>
    ([a.toNat / 4, a.toNat % 4 * 16 + b.toNat / 16, b.toNat % 16 * 4 + c.toNat / 64, c.toNat % 64] ++ (base64Places rest).1,
      (base64Places rest).2)
  | [a, b] => ([a.toNat / 4, a.toNat % 4 * 16 + b.toNat / 16, b.toNat % 16 * 4], 1)
  | [a] => ([a.toNat / 4, a.toNat % 4 * 16], 2)
  | [] => ([], 0)

theorem base64Encode_text (b : Bytes) : Base64Text b (base64Encode b) := by
  refine ⟨(base64Places b).1, (base64Places b).2, ?_, ?_, ?_, ?_⟩
  · fun_induction base64Encode b with
    | case1 a b c rest ih =>
      have ha := a.toNat_lt; have hb := b.toNat_lt; have hc := c.toNat_lt
      simp only [base64Places, base64Block, List.map_append, List.map_cons, List.map_nil, List.append_assoc, ← ih]
      rw [base64Char_place (by omega), base64Char_place (by omega), base64Char_place (by omega), base64Char_place (by omega)]
    | case2 a b =>
      have ha := a.toNat_lt; have hb := b.toNat_lt
      simp only [base64Places, base64Block, List.map_append, List.map_cons, List.map_nil]
      rw [base64Char_place (by omega), base64Char_place (by omega), base64Char_place (by omega)]
      simp
    | case3 a =>
      have ha := a.toNat_lt
      simp only [base64Places, base64Block, List.map_append, List.map_cons, List.map_nil]
      rw [base64Char_place (by omega), base64Char_place (by omega)]
      simp
    | case4 => rfl
  · fun_induction base64Places b <;> simp_all
  · fun_induction base64Encode b <;> simp_all [base64Block] <;> omega
  · fun_induction base64Places b with
    | case1 a b c rest ih =>
      have ha := a.toNat_lt; have hb := b.toNat_lt; have hc := c.toNat_lt
      simp only [List.flatMap_append, List.flatMap_cons, List.flatMap_nil, ih, List.append_assoc]
      generalize List.flatMap (fun b : UInt8 => binary 8 b.toNat) rest ++ _ = tail
      simp only [binary, List.cons_append, List.nil_append, List.cons.injEq]
      refine ⟨?_, ?_, ?_, ?_, ?_, ?_, ?_, ?_, ?_, ?_, ?_, ?_, ?_, ?_, ?_, ?_, ?_, ?_, ?_, ?_, ?_, ?_, ?_, ?_, trivial⟩ <;> omega
    | case2 a b =>
      have ha := a.toNat_lt; have hb := b.toNat_lt
      simp [binary]
      omega
    | case3 a =>
      have ha := a.toNat_lt
      simp [binary]
      omega
    | case4 => rfl

end Willow
