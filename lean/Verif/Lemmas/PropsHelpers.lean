import Verif.Model.Helpers
import Verif.Lemmas.Kv

/-! Lemmas for the theorems of `Verif/Props/Helpers.lean`. -/

namespace Willow.Props

open Willow Spec

theorem compareKeyParts_eq (x y : UInt8) : compareKeyParts x y = .eq ↔ x = y := by
  unfold compareKeyParts
  grind

theorem prefixLoop_eq : ∀ (a b : Bytes), a.length ≤ b.length → prefixLoop a b = .ok (decide (a <+: b))
  | [], b, _ => by simp [prefixLoop]
  | x :: a, [], h => by simp at h
  | x :: a, y :: b, h => by
    unfold prefixLoop
    split
    · rename_i hne
      rw [ne_eq, compareKeyParts_eq] at hne
      simp [List.cons_prefix_cons, hne]
    · rename_i hne
      rw [ne_eq, Classical.not_not, compareKeyParts_eq] at hne
      rw [prefixLoop_eq a b (by simpa using h)]
      simp [List.cons_prefix_cons, hne]

theorem compareKeysLoop_eq : ∀ (a b : Bytes), a.length = b.length → compareKeysLoop a b = .ok (orderBytes a b)
  | [], [], _ => rfl
  | [], y :: b, h => by simp at h
  | x :: a, [], h => by simp at h
  | x :: a, y :: b, h => by
    have ih := compareKeysLoop_eq a b (by simpa using h)
    simp only [compareKeysLoop, ih, orderBytes, compareKeyParts]
    grind

/-- The order of `CompareKeys`: by length, then byte by byte. -/
theorem compareKeys_eq (a b : Bytes) : compareKeys a b =
    .ok (if a.length < b.length then .lt else if b.length < a.length then .gt else orderBytes a b) := by
  unfold compareKeys
  by_cases h1 : a.length > b.length
  · rw [if_pos h1, if_neg (by omega), if_pos h1]
  · rw [if_neg h1]
    by_cases h2 : a.length < b.length
    · rw [if_pos h2, if_pos h2]
    · rw [if_neg h2, if_neg h2, if_neg h1, compareKeysLoop_eq a b (by omega)]

theorem foldl_delete_get (l : List (Bytes × Bytes)) (kv : KV) (k : Bytes) (h : kv.get k ≠ none → k ∈ l.map (·.1)) :
    (l.foldl (fun db e => db.delete e.1) kv).get k = none := by
  induction l generalizing kv with
  | nil =>
    cases hk : kv.get k with
    | none => simp [hk]
    | some v => exact absurd (h (by simp [hk])) (by simp)
  | cons e l ih =>
    refine ih _ fun hn => ?_
    rw [KV.get_delete] at hn
    split at hn
    · simp at hn
    · rename_i hne
      rcases List.mem_cons.1 (h hn) with h | h
      · exact absurd h hne
      · exact h

theorem get_mem_keys (kv : KV) (k : Bytes) (h : kv.get k ≠ none) : k ∈ kv.map (·.1) := by
  induction kv with
  | nil => simp [KV.get] at h
  | cons e rest ih =>
    unfold KV.get at h
    split at h
    · rename_i heq; simp [heq]
    · exact List.mem_cons_of_mem _ (ih h)

/-! ### Distances -/

theorem square_symm (a b : UInt64) : (a - b) * (a - b) = (b - a) * (b - a) := by grind

theorem square_toNat (a b : UInt64) (h : ((a.toNat : Int) - b.toNat) * ((a.toNat : Int) - b.toNat) + 2 < 2 ^ 63) :
    ((((a - b) * (a - b)).toNat : Nat) : Int) = ((a.toNat : Int) - b.toNat) * ((a.toNat : Int) - b.toNat) := by
  have key : ∀ a b : UInt64, b.toNat ≤ a.toNat → ((a.toNat : Int) - b.toNat) * ((a.toNat : Int) - b.toNat) + 2 < 2 ^ 63 →
      ((((a - b) * (a - b)).toNat : Nat) : Int) = ((a.toNat : Int) - b.toNat) * ((a.toNat : Int) - b.toNat) := by
    intro a b hle h
    have hs : (a - b).toNat = a.toNat - b.toNat := UInt64.toNat_sub_of_le _ _ (by rwa [UInt64.le_iff_toNat_le])
    have hc : ((a.toNat : Int) - b.toNat) = ((a.toNat - b.toNat : Nat) : Int) := by omega
    rw [hc] at h ⊢
    rw [UInt64.toNat_mul, hs]
    have h' : (a.toNat - b.toNat) * (a.toNat - b.toNat) + 2 < 2 ^ 63 := by exact_mod_cast h
    rw [Nat.mod_eq_of_lt (by omega)]
    push_cast
    rfl
  by_cases hle : b.toNat ≤ a.toNat
  · exact key a b hle h
  · have e : ((a.toNat : Int) - b.toNat) * ((a.toNat : Int) - b.toNat) = ((b.toNat : Int) - a.toNat) * ((b.toNat : Int) - a.toNat) := by
      grind
    rw [square_symm, e]
    exact key b a (by omega) (by rwa [e] at h)

/-! ### Base 64 -/

theorem base64Char_inj {m n : Nat} (hm : m < 64) (hn : n < 64) (h : base64Char m = base64Char n) : m = n := by
  have key : ∀ a b : Fin 64, base64Char a = base64Char b → a = b := by decide +kernel
  exact congrArg Fin.val (key ⟨m, hm⟩ ⟨n, hn⟩ h)

theorem base64Char_ne {n : Nat} (hn : n < 64) : base64Char n ≠ 61 := by
  have key : ∀ a : Fin 64, base64Char a ≠ 61 := by decide +kernel
  exact key ⟨n, hn⟩

theorem base64Encode_inj : ∀ (x y : Bytes), base64Encode x = base64Encode y → x = y
  | [], [], _ => rfl
  | [], [a], h => by simp [base64Encode, base64Block] at h
  | [], [a, b], h => by simp [base64Encode, base64Block] at h
  | [], a :: b :: c :: r, h => by simp [base64Encode, base64Block] at h
  | [a], [], h => by simp [base64Encode, base64Block] at h
  | [a, b], [], h => by simp [base64Encode, base64Block] at h
  | a :: b :: c :: r, [], h => by simp [base64Encode, base64Block] at h
  | [a], [a'], h => by
    have ha := a.toNat_lt; have ha' := a'.toNat_lt
    simp only [base64Encode, base64Block, List.take_succ_cons, List.take_zero, List.cons_append, List.cons.injEq] at h
    obtain ⟨h0, h1, _⟩ := h
    have z : (0 : UInt8).toNat = 0 := rfl
    rw [z] at h1
    replace h0 := base64Char_inj (by omega) (by omega) h0
    replace h1 := base64Char_inj (by omega) (by omega) h1
    have : a = a' := by rw [← UInt8.toNat_inj]; omega
    rw [this]
  | [a, b], [a', b'], h => by
    have ha := a.toNat_lt; have ha' := a'.toNat_lt; have hb := b.toNat_lt; have hb' := b'.toNat_lt
    simp only [base64Encode, base64Block, List.take_succ_cons, List.take_zero, List.cons_append, List.cons.injEq] at h
    obtain ⟨h0, h1, h2, _⟩ := h
    have z : (0 : UInt8).toNat = 0 := rfl
    rw [z] at h2
    replace h0 := base64Char_inj (by omega) (by omega) h0
    replace h1 := base64Char_inj (by omega) (by omega) h1
    replace h2 := base64Char_inj (by omega) (by omega) h2
    have h3 : a = a' := by rw [← UInt8.toNat_inj]; omega
    have h4 : b = b' := by rw [← UInt8.toNat_inj]; omega
    rw [h3, h4]
  | a :: b :: c :: r, a' :: b' :: c' :: r', h => by
    have ha := a.toNat_lt; have ha' := a'.toNat_lt; have hb := b.toNat_lt; have hb' := b'.toNat_lt
    have hc := c.toNat_lt; have hc' := c'.toNat_lt
    simp only [base64Encode, base64Block, List.cons_append, List.nil_append, List.cons.injEq] at h
    obtain ⟨h0, h1, h2, h3, h4⟩ := h
    replace h0 := base64Char_inj (by omega) (by omega) h0
    replace h1 := base64Char_inj (by omega) (by omega) h1
    replace h2 := base64Char_inj (by omega) (by omega) h2
    replace h3 := base64Char_inj (by omega) (by omega) h3
    have h5 : a = a' := by rw [← UInt8.toNat_inj]; omega
    have h6 : b = b' := by rw [← UInt8.toNat_inj]; omega
    have h7 : c = c' := by rw [← UInt8.toNat_inj]; omega
    rw [h5, h6, h7, base64Encode_inj r r' h4]
  | [a], [a', b'], h => by
    have hb' := b'.toNat_lt
    simp only [base64Encode, base64Block, List.take_succ_cons, List.take_zero, List.cons_append, List.nil_append, List.cons.injEq] at h
    exact absurd h.2.2.1.symm (base64Char_ne (by have z : (0 : UInt8).toNat = 0 := rfl; rw [z]; omega))
  | [a, b], [a'], h => by
    have hb := b.toNat_lt
    simp only [base64Encode, base64Block, List.take_succ_cons, List.take_zero, List.cons_append, List.nil_append, List.cons.injEq] at h
    exact absurd h.2.2.1 (base64Char_ne (by have z : (0 : UInt8).toNat = 0 := rfl; rw [z]; omega))
  | [a], a' :: b' :: c' :: r', h => by
    have hc' := c'.toNat_lt
    simp only [base64Encode, base64Block, List.take_succ_cons, List.take_zero, List.cons_append, List.nil_append, List.cons.injEq] at h
    exact absurd h.2.2.2.1.symm (base64Char_ne (by omega))
  | [a, b], a' :: b' :: c' :: r', h => by
    have hc' := c'.toNat_lt
    simp only [base64Encode, base64Block, List.take_succ_cons, List.take_zero, List.cons_append, List.nil_append, List.cons.injEq] at h
    exact absurd h.2.2.2.1.symm (base64Char_ne (by omega))
  | a :: b :: c :: r, [a'], h => by
    have hc := c.toNat_lt
    simp only [base64Encode, base64Block, List.take_succ_cons, List.take_zero, List.cons_append, List.nil_append, List.cons.injEq] at h
    exact absurd h.2.2.2.1 (base64Char_ne (by omega))
  | a :: b :: c :: r, [a', b'], h => by
    have hc := c.toNat_lt
    simp only [base64Encode, base64Block, List.take_succ_cons, List.take_zero, List.cons_append, List.nil_append, List.cons.injEq] at h
    exact absurd h.2.2.2.1 (base64Char_ne (by omega))

end Willow.Props
