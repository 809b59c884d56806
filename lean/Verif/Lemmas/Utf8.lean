import Verif.Spec.Utf8
import Verif.Model.Kv

/-! Lemmas about characters in strings of bytes. -/

namespace Willow

open Spec

theorem u8_eq {a b : UInt8} : a = b ↔ a.toNat = b.toNat := UInt8.toNat_inj.symm

theorem runeWidth_encode (c : Char) (rest : Bytes) :
    runeWidth (String.utf8EncodeChar c ++ rest) = (String.utf8EncodeChar c).length := by
  have hv := c.valid
  unfold String.utf8EncodeChar
  simp only [UInt32.isValidChar, Nat.isValidChar] at hv
  generalize c.val.toNat = v at *
  dsimp only
  split
  · simp only [runeWidth, List.cons_append, List.nil_append, UInt8.le_iff_toNat_le, UInt8.toNat_ofNat', UInt8.reduceToNat]
    rw [if_neg (by omega), if_neg (by omega), if_neg (by omega)]; rfl
  · split
    · simp only [runeWidth, List.cons_append, List.nil_append, UInt8.le_iff_toNat_le, UInt8.toNat_ofNat', UInt8.reduceToNat]
      rw [if_pos (by omega), if_pos (by omega)]; rfl
    · split
      · simp only [runeWidth, List.cons_append, List.nil_append, UInt8.le_iff_toNat_le, UInt8.toNat_ofNat', UInt8.reduceToNat, u8_eq, apply_ite UInt8.toNat]
        rw [if_neg (by omega), if_pos (by omega), if_pos]
        · rfl
        · split <;> split <;> omega
      · simp only [runeWidth, List.cons_append, List.nil_append, UInt8.le_iff_toNat_le, UInt8.toNat_ofNat', UInt8.reduceToNat, u8_eq, apply_ite UInt8.toNat]
        rw [if_neg (by omega), if_neg (by omega), if_pos (by omega), if_pos]
        · rfl
        · split <;> split <;> omega

theorem encode_of_val {v : Nat} (h : v.isValidChar) : (Char.ofNatAux v h).val.toNat = v := by
  simp only [Char.ofNatAux]
  exact UInt32.toNat_ofNatLT ..

theorem encode_two {a b : UInt8} (ha : 0xC2 ≤ a ∧ a ≤ 0xDF) (hb : 0x80 ≤ b ∧ b ≤ 0xBF) :
    ∃ c : Char, String.utf8EncodeChar c = [a, b] := by
  simp only [UInt8.le_iff_toNat_le, UInt8.reduceToNat] at ha hb
  have hv : ((a.toNat - 192) * 64 + (b.toNat - 128)).isValidChar := by simp only [Nat.isValidChar]; omega
  refine ⟨Char.ofNatAux _ hv, ?_⟩
  unfold String.utf8EncodeChar
  rw [encode_of_val hv]
  dsimp only
  rw [if_neg (by omega), if_pos (by omega)]
  simp only [List.cons.injEq, u8_eq, UInt8.toNat_ofNat', and_true]
  omega

theorem encode_three {a b c : UInt8} (ha : 0xE0 ≤ a ∧ a ≤ 0xEF)
    (h : (if a = 0xE0 then 0xA0 else 0x80) ≤ b ∧ b ≤ (if a = 0xED then 0x9F else 0xBF) ∧ 0x80 ≤ c ∧ c ≤ 0xBF) :
    ∃ x : Char, String.utf8EncodeChar x = [a, b, c] := by
  simp only [UInt8.le_iff_toNat_le, UInt8.reduceToNat, u8_eq, apply_ite UInt8.toNat] at ha h
  have h' : (a.toNat ≠ 224 ∨ 160 ≤ b.toNat) ∧ (a.toNat ≠ 237 ∨ b.toNat ≤ 159) ∧ 128 ≤ b.toNat ∧ b.toNat ≤ 191 := by
    revert h; split <;> split <;> omega
  have hv : ((a.toNat - 224) * 4096 + (b.toNat - 128) * 64 + (c.toNat - 128)).isValidChar := by
    simp only [Nat.isValidChar]; omega
  refine ⟨Char.ofNatAux _ hv, ?_⟩
  unfold String.utf8EncodeChar
  rw [encode_of_val hv]
  dsimp only
  rw [if_neg (by omega), if_neg (by omega), if_pos (by omega)]
  simp only [List.cons.injEq, u8_eq, UInt8.toNat_ofNat', and_true]
  omega

theorem encode_four {a b c d : UInt8} (ha : 0xF0 ≤ a ∧ a ≤ 0xF4)
    (h : (if a = 0xF0 then 0x90 else 0x80) ≤ b ∧ b ≤ (if a = 0xF4 then 0x8F else 0xBF) ∧
      0x80 ≤ c ∧ c ≤ 0xBF ∧ 0x80 ≤ d ∧ d ≤ 0xBF) :
    ∃ x : Char, String.utf8EncodeChar x = [a, b, c, d] := by
  simp only [UInt8.le_iff_toNat_le, UInt8.reduceToNat, u8_eq, apply_ite UInt8.toNat] at ha h
  have h' : (a.toNat ≠ 240 ∨ 144 ≤ b.toNat) ∧ (a.toNat ≠ 244 ∨ b.toNat ≤ 143) ∧ 128 ≤ b.toNat ∧ b.toNat ≤ 191 := by
    revert h; split <;> split <;> omega
  have hv : ((a.toNat - 240) * 262144 + (b.toNat - 128) * 4096 + (c.toNat - 128) * 64 + (d.toNat - 128)).isValidChar := by
    simp only [Nat.isValidChar]; omega
  refine ⟨Char.ofNatAux _ hv, ?_⟩
  unfold String.utf8EncodeChar
  rw [encode_of_val hv]
  dsimp only
  rw [if_neg (by omega), if_neg (by omega), if_neg (by omega)]
  simp only [List.cons.injEq, u8_eq, UInt8.toNat_ofNat', and_true]
  omega

/-- What is not one byte is the encoding of a character. -/
theorem runeWidth_or (bs : Bytes) (h : bs ≠ []) :
    runeWidth bs = 1 ∨ ∃ c : Char, String.utf8EncodeChar c <+: bs := by
  cases bs with
  | nil => exact absurd rfl h
  | cons a rest =>
    simp only [runeWidth]
    split
    · next ha =>
      split
      · split
        · next hb =>
          obtain ⟨x, hx⟩ := encode_two ha hb
          exact .inr ⟨x, by rw [hx]; exact ⟨_, rfl⟩⟩
        · exact .inl rfl
      · exact .inl rfl
    · split
      · next ha =>
        split
        · next b c r =>
          by_cases hb : (if a = 0xE0 then 0xA0 else 0x80) ≤ b ∧ b ≤ (if a = 0xED then 0x9F else 0xBF) ∧ 0x80 ≤ c ∧ c ≤ 0xBF
          · obtain ⟨x, hx⟩ := encode_three ha hb
            exact .inr ⟨x, by rw [hx]; exact ⟨_, rfl⟩⟩
          · rw [if_neg hb]; exact .inl rfl
        · exact .inl rfl
      · split
        · next ha =>
          split
          · next b c d r =>
            by_cases hb : (if a = 0xF0 then 0x90 else 0x80) ≤ b ∧ b ≤ (if a = 0xF4 then 0x8F else 0xBF) ∧
                0x80 ≤ c ∧ c ≤ 0xBF ∧ 0x80 ≤ d ∧ d ≤ 0xBF
            · obtain ⟨x, hx⟩ := encode_four ha hb
              exact .inr ⟨x, by rw [hx]; exact ⟨_, rfl⟩⟩
            · rw [if_neg hb]; exact .inl rfl
          · exact .inl rfl
        · exact .inl rfl

/-- `runeWidth` is the length of the first character. -/
theorem runeWidth_firstChar {bs : Bytes} (h : bs ≠ []) {w : Nat} : FirstChar bs w ↔ w = runeWidth bs := by
  constructor
  · rintro (⟨c, ⟨rest, rfl⟩, rfl⟩ | ⟨hn, _, rfl⟩)
    · exact (runeWidth_encode c rest).symm
    · rcases runeWidth_or bs h with h1 | h1
      · exact h1.symm
      · exact absurd h1 hn
  · rintro rfl
    by_cases hc : ∃ c : Char, String.utf8EncodeChar c <+: bs
    · obtain ⟨c, rest, rfl⟩ := hc
      exact .inl ⟨c, ⟨rest, rfl⟩, runeWidth_encode c rest⟩
    · rcases runeWidth_or bs h with h1 | h1
      · exact .inr ⟨hc, h, h1⟩
      · exact absurd h1 hc

theorem runeWidth_pos {bs : Bytes} (h : bs ≠ []) : 0 < runeWidth bs := by
  cases bs with
  | nil => exact absurd rfl h
  | cons a rest =>
    simp only [runeWidth]
    repeat' split
    all_goals omega

theorem xorLoop_length : ∀ (k : Nat) (a b : Bytes), a.length = b.length → (xorLoop k a b).length = a.length
  | _, [], _, _ => by simp [xorLoop]
  | _, _ :: _, [], h => by simp at h
  | 0, a :: as, b :: bs, h => by simp [xorLoop, xorLoop_length _ as bs (by simpa using h)]
  | k + 1, a :: as, b :: bs, h => by simp [xorLoop, xorLoop_length k as bs (by simpa using h)]

/-- Where a character begins in `a`, after `k` bytes that are skipped. -/
theorem xorLoop_get : ∀ (k : Nat) (a b : Bytes), a.length = b.length → ∀ (i : Nat) (x y : UInt8),
    a[i]? = some x → b[i]? = some y →
    (k ≤ i ∧ CharBegins (a.drop k) (i - k) → (xorLoop k a b)[i]? = some (x ^^^ y)) ∧
    (¬ (k ≤ i ∧ CharBegins (a.drop k) (i - k)) → (xorLoop k a b)[i]? = some 0)
  | _, [], _, _, i, x, y, h1, _ => by simp at h1
  | _, _ :: _, [], h, _, _, _, _, _ => by simp at h
  | 0, a :: as, b :: bs, h, 0, x, y, h1, h2 => by
    simp only [List.getElem?_cons_zero, Option.some.injEq] at h1 h2
    subst h1 h2
    refine ⟨fun _ => by simp [xorLoop], fun hn => absurd ⟨Nat.le_refl 0, .first (by simp)⟩ hn⟩
  | 0, a :: as, b :: bs, h, i + 1, x, y, h1, h2 => by
    simp only [List.getElem?_cons_succ] at h1 h2
    have ih := xorLoop_get (runeWidth (a :: as) - 1) as bs (by simpa using h) i x y h1 h2
    have hp := runeWidth_pos (bs := a :: as) (by simp)
    have hd : as.drop (runeWidth (a :: as) - 1) = (a :: as).drop (runeWidth (a :: as)) := by
      obtain ⟨w, hw⟩ : ∃ w, runeWidth (a :: as) = w + 1 := ⟨_, (Nat.sub_add_cancel hp).symm⟩
      rw [hw]; rfl
    rw [hd] at ih
    have key : (0 ≤ i + 1 ∧ CharBegins ((a :: as).drop 0) (i + 1 - 0)) ↔
        (runeWidth (a :: as) - 1 ≤ i ∧ CharBegins ((a :: as).drop (runeWidth (a :: as))) (i - (runeWidth (a :: as) - 1))) := by
      simp only [List.drop_zero, Nat.sub_zero, Nat.zero_le, true_and]
      constructor
      · intro hb
        generalize hj : i + 1 = j at hb
        cases hb with
        | first => omega
        | @later _ w i' hf hl =>
          rw [runeWidth_firstChar (by simp)] at hf
          subst hf
          refine ⟨by omega, ?_⟩
          rw [show i - (runeWidth (a :: as) - 1) = i' by omega]
          exact hl
      · rintro ⟨hle, hb⟩
        have := CharBegins.later ((runeWidth_firstChar (by simp)).2 rfl) hb
        rwa [show runeWidth (a :: as) + (i - (runeWidth (a :: as) - 1)) = i + 1 by omega] at this
    rw [key]
    simp only [xorLoop, List.getElem?_cons_succ]
    exact ih
  | k + 1, a :: as, b :: bs, h, 0, x, y, h1, h2 => by
    refine ⟨fun hn => by omega, fun _ => by simp [xorLoop]⟩
  | k + 1, a :: as, b :: bs, h, i + 1, x, y, h1, h2 => by
    simp only [List.getElem?_cons_succ] at h1 h2
    have ih := xorLoop_get k as bs (by simpa using h) i x y h1 h2
    simp only [xorLoop, List.getElem?_cons_succ, List.drop_succ_cons, Nat.add_le_add_iff_right, Nat.add_sub_add_right]
    exact ih

theorem two_le_encode {ch : Char} (h : 0x80 ≤ ch.val) : 2 ≤ (String.utf8EncodeChar ch).length := by
  have h' : 128 ≤ ch.val.toNat := h
  unfold String.utf8EncodeChar
  dsimp only
  repeat' split
  all_goals first | omega | simp

theorem runeWidth_ascii {a : UInt8} {rest : Bytes} (h : a < 0x80) : runeWidth (a :: rest) = 1 := by
  simp only [UInt8.lt_iff_toNat_lt, UInt8.reduceToNat] at h
  simp only [runeWidth, UInt8.le_iff_toNat_le, UInt8.reduceToNat]
  rw [if_neg (by omega), if_neg (by omega), if_neg (by omega)]

/-- In the second byte of a character after one-byte characters none begins. -/
theorem not_charBegins_second : ∀ (before after : Bytes) (ch : Char), (∀ x ∈ before, x < 0x80) → 0x80 ≤ ch.val →
    ¬ CharBegins (before ++ String.utf8EncodeChar ch ++ after) (before.length + 1)
  | [], after, ch, _, hch => by
    intro h
    have h2 := two_le_encode hch
    simp only [List.nil_append, List.length_nil, Nat.zero_add] at h
    generalize hj : 1 = j at h
    cases h with
    | first => omega
    | @later _ w i hf hl =>
      rw [runeWidth_firstChar (by intro e; simp [List.append_eq_nil_iff] at e), runeWidth_encode] at hf
      omega
  | a :: before, after, ch, hb, hch => by
    intro h
    have ih := not_charBegins_second before after ch (fun x hx => hb x (List.mem_cons_of_mem _ hx)) hch
    simp only [List.cons_append, List.length_cons] at h
    generalize hj : before.length + 1 + 1 = j at h
    cases h with
    | first => omega
    | @later _ w i hf hl =>
      rw [runeWidth_firstChar (by simp), runeWidth_ascii (hb a List.mem_cons_self)] at hf
      subst hf
      rw [List.drop_one, List.tail_cons] at hl
      rw [show i = before.length + 1 by omega] at hl
      exact ih hl

end Willow
