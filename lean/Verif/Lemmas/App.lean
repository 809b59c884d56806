import Verif.Lemmas.Order
import Verif.Model.App

/-! Lemmas about the texts and file names of the application. -/

namespace Willow

open Spec

/-! ### Hexadecimal digests and base 32 names -/

theorem forall_byte {P : UInt8 → Prop} (h : ∀ n : Fin 256, P (UInt8.ofNat n)) : ∀ b, P b := fun b => by
  have := h ⟨b.toNat, b.toNat_lt⟩
  rwa [show UInt8.ofNat ((⟨b.toNat, b.toNat_lt⟩ : Fin 256) : Nat) = b by simp] at this

theorem hexValue_digit (b : UInt8) :
    hexValue (hexDigit (b >>> 4)) = some (b.toNat / 16) ∧ hexValue (hexDigit (b &&& 0x0f)) = some (b.toNat % 16) := by
  revert b
  apply forall_byte
  decide +kernel

theorem hexDecode_encode : ∀ b : Bytes, hexDecode (hexEncode b) = some b
  | [] => rfl
  | x :: b => by
    have h := hexValue_digit x
    simp only [hexEncode, hexDecode, h.1, h.2, hexDecode_encode b, Option.bind_eq_bind, Option.bind_some, Option.some.injEq]
    rw [show x.toNat / 16 * 16 + x.toNat % 16 = x.toNat by omega]
    simp

theorem base32Char_inj {m n : Nat} (hm : m < 32) (hn : n < 32) (h : base32Char m = base32Char n) : m = n := by
  have key : ∀ a b : Fin 32, base32Char a = base32Char b → a = b := by decide +kernel
  exact congrArg Fin.val (key ⟨m, hm⟩ ⟨n, hn⟩ h)

/-- The digits of five bytes determine the bytes. -/
theorem base32Block_inj {a b c d e a' b' c' d' e' : UInt8} (h : base32Block a b c d e = base32Block a' b' c' d' e') :
    a = a' ∧ b = b' ∧ c = c' ∧ d = d' ∧ e = e' := by
  have ha := a.toNat_lt; have hb := b.toNat_lt; have hc := c.toNat_lt; have hd := d.toNat_lt; have he := e.toNat_lt
  have ha' := a'.toNat_lt; have hb' := b'.toNat_lt; have hc' := c'.toNat_lt; have hd' := d'.toNat_lt; have he' := e'.toNat_lt
  unfold base32Block at h
  simp only [List.cons.injEq, and_true] at h
  obtain ⟨h0, h1, h2, h3, h4, h5, h6, h7⟩ := h
  replace h0 := base32Char_inj (by omega) (by omega) h0
  replace h1 := base32Char_inj (by omega) (by omega) h1
  replace h2 := base32Char_inj (by omega) (by omega) h2
  replace h3 := base32Char_inj (by omega) (by omega) h3
  replace h4 := base32Char_inj (by omega) (by omega) h4
  replace h5 := base32Char_inj (by omega) (by omega) h5
  replace h6 := base32Char_inj (by omega) (by omega) h6
  replace h7 := base32Char_inj (by omega) (by omega) h7
  simp only [← UInt8.toNat_inj]
  omega

theorem base32Block_inj2 {a b a' b' : UInt8} (h : (base32Block a b 0 0 0).take 4 = (base32Block a' b' 0 0 0).take 4) :
    a = a' ∧ b = b' := by
  have ha := a.toNat_lt; have hb := b.toNat_lt
  have ha' := a'.toNat_lt; have hb' := b'.toNat_lt
  unfold base32Block at h
  simp only [List.take_succ_cons, List.take_zero, List.cons.injEq, and_true] at h
  obtain ⟨h0, h1, h2, h3⟩ := h
  have z : (0 : UInt8).toNat = 0 := rfl
  rw [z] at h3
  replace h0 := base32Char_inj (by omega) (by omega) h0
  replace h1 := base32Char_inj (by omega) (by omega) h1
  replace h2 := base32Char_inj (by omega) (by omega) h2
  replace h3 := base32Char_inj (by omega) (by omega) h3
  simp only [← UInt8.toNat_inj]
  omega

/-- Names of byte strings whose length is two more than a multiple of five, as for the 32 bytes
of SHA-256. -/
theorem base32Encode_inj : ∀ (n : Nat) (x y : Bytes), x.length = 5 * n + 2 → y.length = 5 * n + 2 →
    base32Encode x = base32Encode y → x = y
  | 0, x, y, hx, hy, h => by
    match x, hx with
    | [a, b], _ =>
      match y, hy with
      | [a', b'], _ =>
        unfold base32Encode at h
        have := base32Block_inj2 (List.append_inj h (by simp [base32Block])).1
        rw [this.1, this.2]
  | n + 1, x, y, hx, hy, h => by
    match x, hx with
    | a :: b :: c :: d :: e :: x, hx =>
      match y, hy with
      | a' :: b' :: c' :: d' :: e' :: y, hy =>
        unfold base32Encode at h
        obtain ⟨h1, h2⟩ := List.append_inj h (by simp [base32Block])
        obtain ⟨rfl, rfl, rfl, rfl, rfl⟩ := base32Block_inj h1
        simp only [List.length_cons] at hx hy
        rw [base32Encode_inj n x y (by omega) (by omega) h2]

theorem base32Encode_ne : ∀ x : Bytes, x ≠ [] → base32Encode x ≠ []
  | [], h => absurd rfl h
  | [a], _ => by simp [base32Encode]
  | [a, b], _ => by simp [base32Encode]
  | [a, b, c], _ => by simp [base32Encode]
  | [a, b, c, d], _ => by simp [base32Encode]
  | a :: b :: c :: d :: e :: x, _ => by simp [base32Encode, base32Block]

/-! ### Paths as texts -/

theorem splitSlash_ne : ∀ s : Bytes, splitSlash s ≠ []
  | [] => by simp [splitSlash]
  | c :: rest => by
    unfold splitSlash
    split
    · simp
    · split <;> simp

theorem makePathLoop_cons (c : UInt8) : ∀ (rest : Path) (a : Bytes), makePathLoop rest (c :: a) = c :: makePathLoop rest a
  | [], _ => rfl
  | x :: rest, a => by
    unfold makePathLoop
    rw [List.cons_append, makePathLoop_cons c rest]

theorem makePathLoop_append : ∀ (rest : Path) (a b : Bytes), makePathLoop rest (a ++ b) = a ++ makePathLoop rest b
  | rest, [], b => rfl
  | rest, c :: a, b => by rw [List.cons_append, makePathLoop_cons, makePathLoop_append rest a b]; rfl

theorem makePath_split : ∀ s : Bytes, makePath (splitSlash s) = .ok s
  | [] => rfl
  | c :: rest => by
    have ih := makePath_split rest
    unfold splitSlash
    cases hs : splitSlash rest with
    | nil => exact absurd hs (splitSlash_ne rest)
    | cons a more =>
      rw [hs] at ih
      have ih' : makePathLoop more a = rest := by unfold makePath at ih; cases ih; rfl
      by_cases hc : c = 47
      · rw [if_pos hc]
        show Res.ok (makePathLoop (a :: more) []) = _
        unfold makePathLoop
        rw [List.nil_append, makePathLoop_cons, ih', hc]
      · rw [if_neg hc]
        show Res.ok (makePathLoop more (c :: a)) = _
        rw [makePathLoop_cons, ih']

theorem splitSlash_append (a : Bytes) (ha : (47 : UInt8) ∉ a) (rest : Bytes) : splitSlash (a ++ 47 :: rest) = a :: splitSlash rest := by
  induction a with
  | nil => simp [splitSlash]
  | cons c a ih =>
    rw [List.mem_cons, not_or] at ha
    rw [List.cons_append]
    conv => lhs; unfold splitSlash
    rw [ih ha.2, if_neg fun h => ha.1 h.symm]

theorem splitSlash_single (a : Bytes) (ha : (47 : UInt8) ∉ a) : splitSlash a = [a] := by
  induction a with
  | nil => rfl
  | cons c a ih =>
    rw [List.mem_cons, not_or] at ha
    unfold splitSlash
    rw [ih ha.2, if_neg fun h => ha.1 h.symm]

theorem split_makePathLoop : ∀ (rest : Path) (a : Bytes), (47 : UInt8) ∉ a → (∀ c ∈ rest, (47 : UInt8) ∉ c) →
    splitSlash (makePathLoop rest a) = a :: rest
  | [], a, ha, _ => splitSlash_single a ha
  | c :: rest, a, ha, h => by
    unfold makePathLoop
    rw [makePathLoop_append, makePathLoop_cons, splitSlash_append a ha,
      split_makePathLoop rest c (h c List.mem_cons_self) fun x hx => h x (List.mem_cons_of_mem _ hx)]

theorem splitSlash_noSlash : ∀ s : Bytes, ∀ c ∈ splitSlash s, (47 : UInt8) ∉ c
  | [], c, hc => by simp [splitSlash] at hc; simp [hc]
  | x :: rest, c, hc => by
    have ih := splitSlash_noSlash rest
    unfold splitSlash at hc
    split at hc
    · rcases List.mem_cons.1 hc with rfl | hc
      · simp
      · exact ih c hc
    · rename_i hx
      split at hc
      · rename_i hs
        exact absurd hs (splitSlash_ne rest)
      · rename_i a more hs
        rw [hs] at ih
        rcases List.mem_cons.1 hc with rfl | hc
        · rw [List.mem_cons, not_or]
          exact ⟨fun h => hx h.symm, ih a List.mem_cons_self⟩
        · exact ih c (List.mem_cons_of_mem _ hc)

end Willow
