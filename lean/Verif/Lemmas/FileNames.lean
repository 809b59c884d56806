import Verif.Spec.FileNames
import Verif.Lemmas.App

namespace Willow

open Spec

theorem base32Char_alphabet {n : Nat} (h : n < 32) : alphabet32[n]? = some (base32Char n) := by
  have key : ∀ a : Fin 32, alphabet32[a.val]? = some (base32Char a) := by decide +kernel
  exact key ⟨n, h⟩

/-- The digits of base 32 text of complete blocks and two more bytes. -/
theorem base32Encode_digits : ∀ (n : Nat) (x : Bytes), x.length = 5 * n + 2 →
    ∃ ds : List Nat, ds.length = 8 * n + 4 ∧ (∀ d ∈ ds, d < 32) ∧
      base32Encode x = ds.map base32Char ++ List.replicate 4 61 ∧
      ∀ acc, ds.foldl (fun n d => n * 32 + d) acc = 16 * (x.map UInt8.toNat).foldl (fun n d => n * 256 + d) acc
  | 0, x, hx => by
    match x, hx with
    | [a, b], _ =>
      have ha := a.toNat_lt; have hb := b.toNat_lt
      refine ⟨[a.toNat / 8, a.toNat % 8 * 4 + b.toNat / 64, b.toNat / 2 % 32, b.toNat % 2 * 16], rfl, ?_, ?_, ?_⟩
      · intro d hd
        simp only [List.mem_cons, List.not_mem_nil, or_false] at hd
        omega
      · simp [base32Encode, base32Block]
      · intro acc
        simp only [List.foldl_cons, List.foldl_nil, List.map_cons, List.map_nil]
        omega
  | n + 1, x, hx => by
    match x, hx with
    | a :: b :: c :: d :: e :: x, hx =>
      have ha := a.toNat_lt; have hb := b.toNat_lt; have hc := c.toNat_lt; have hd := d.toNat_lt; have he := e.toNat_lt
      simp only [List.length_cons] at hx
      obtain ⟨ds, h1, h2, h3, h4⟩ := base32Encode_digits n x (by omega)
      refine ⟨[a.toNat / 8, a.toNat % 8 * 4 + b.toNat / 64, b.toNat / 2 % 32, b.toNat % 2 * 16 + c.toNat / 16,
        c.toNat % 16 * 2 + d.toNat / 128, d.toNat / 4 % 32, d.toNat % 4 * 8 + e.toNat / 32, e.toNat % 32] ++ ds, ?_, ?_, ?_, ?_⟩
      · simp; omega
      · intro y hy
        rcases List.mem_append.1 hy with hy | hy
        · simp only [List.mem_cons, List.not_mem_nil, or_false] at hy
          omega
        · exact h2 y hy
      · unfold base32Encode
        rw [h3]
        simp [base32Block]
      · intro acc
        rw [List.foldl_append, h4]
        simp only [List.foldl_cons, List.foldl_nil, List.map_cons]
        congr 2
        omega

theorem hexValue_upper (c : UInt8) : hexValue (upperCase c) = hexValue c := by
  have key : ∀ n : Fin 256, hexValue (upperCase (UInt8.ofNat n)) = hexValue (UInt8.ofNat n) := by decide +kernel
  have := key ⟨c.toNat, c.toNat_lt⟩
  simpa using this

theorem hexDecode_upper : ∀ s : Bytes, hexDecode (s.map upperCase) = hexDecode s
  | [] => rfl
  | [_] => rfl
  | a :: b :: s => by
    simp only [List.map_cons, hexDecode, hexValue_upper, hexDecode_upper s]

theorem hexValue_isSome (c : UInt8) : (hexValue c).isSome = true ↔ IsHexDigit c := by
  have key : ∀ n : Fin 256, (hexValue (UInt8.ofNat n)).isSome = true ↔ IsHexDigit (UInt8.ofNat n) := by decide +kernel
  have := key ⟨c.toNat, c.toNat_lt⟩
  simpa using this

theorem hexDecode_isSome : ∀ s : Bytes, (hexDecode s).isSome = true ↔ s.length % 2 = 0 ∧ ∀ c ∈ s, IsHexDigit c
  | [] => by simp [hexDecode]
  | [_] => by simp [hexDecode]
  | a :: b :: s => by
    have ih := hexDecode_isSome s
    have ha := hexValue_isSome a
    have hb := hexValue_isSome b
    have e : (a :: b :: s).length % 2 = s.length % 2 := by simp only [List.length_cons]; omega
    rw [e]
    unfold hexDecode
    simp only [List.forall_mem_cons, ← ha, ← hb]
    cases hexValue a <;> cases hexValue b <;> cases hd : hexDecode s <;> simp_all

theorem hexDecode_length : ∀ (s b : Bytes), hexDecode s = some b → s.length = 2 * b.length
  | [], b, h => by simp only [hexDecode, Option.some.injEq] at h; subst h; rfl
  | [_], b, h => by simp [hexDecode] at h
  | x :: y :: s, b, h => by
    unfold hexDecode at h
    simp only [bind, Option.bind_eq_some_iff] at h
    obtain ⟨_, -, _, -, more, hm, h⟩ := h
    simp only [Option.some.injEq] at h
    subst h
    have := hexDecode_length s more hm
    simp only [List.length_cons]
    omega

theorem base32Char_ne_pad {n : Nat} (h : n < 32) : base32Char n ≠ 61 := by
  have key : ∀ a : Fin 32, base32Char a ≠ 61 := by decide +kernel
  exact key ⟨n, h⟩

/-- Base 32 texts of different byte strings differ. -/
theorem base32Encode_injective : ∀ (x y : Bytes), base32Encode x = base32Encode y → x = y
  | [], y, h => by
    cases y with
    | nil => rfl
    | cons c y => exact absurd h.symm (base32Encode_ne _ (by simp))
  | a :: b :: c :: d :: e :: x, y, h => by
    have ha := a.toNat_lt; have hb := b.toNat_lt; have hc := c.toNat_lt; have hd := d.toNat_lt; have he := e.toNat_lt
    have hne : base32Char (e.toNat % 32) ≠ 61 := base32Char_ne_pad (by omega)
    match y with
    | [] => exact absurd h (base32Encode_ne _ (by simp))
    | [_] => simp [base32Encode, base32Block, hne] at h
    | [_, _] => simp [base32Encode, base32Block, hne] at h
    | [_, _, _] => simp [base32Encode, base32Block, hne] at h
    | [_, _, _, _] => simp [base32Encode, base32Block, hne] at h
    | a' :: b' :: c' :: d' :: e' :: y =>
      unfold base32Encode at h
      obtain ⟨h1, h2⟩ := List.append_inj h (by simp [base32Block])
      obtain ⟨rfl, rfl, rfl, rfl, rfl⟩ := base32Block_inj h1
      rw [base32Encode_injective x y h2]
  | [a], y, h => by
    have ha := a.toNat_lt
    match y with
    | [] => exact absurd h (base32Encode_ne _ (by simp))
    | [a'] =>
      have ha' := a'.toNat_lt
      simp only [base32Encode, base32Block, List.take_succ_cons, List.take_zero, List.cons_append, List.cons.injEq] at h
      have h0 := base32Char_inj (by omega) (by omega) h.1
      have h1 := base32Char_inj (by simp; omega) (by simp; omega) h.2.1
      simp at h1
      rw [← UInt8.toNat_inj.1 (show a.toNat = a'.toNat by omega)]
    | [a', b'] =>
      have hb := b'.toNat_lt
      have := base32Char_ne_pad (n := b'.toNat / 2 % 32) (by omega)
      simp [base32Encode, base32Block, List.replicate, Ne.symm this] at h
    | [a', b', c'] =>
      have hb := b'.toNat_lt
      have := base32Char_ne_pad (n := b'.toNat / 2 % 32) (by omega)
      simp [base32Encode, base32Block, List.replicate, Ne.symm this] at h
    | [a', b', c', d'] =>
      have hb := b'.toNat_lt
      have := base32Char_ne_pad (n := b'.toNat / 2 % 32) (by omega)
      simp [base32Encode, base32Block, List.replicate, Ne.symm this] at h
    | a' :: b' :: c' :: d' :: e' :: y =>
      have := base32Char_ne_pad (n := e'.toNat % 32) (by omega)
      simp [base32Encode, base32Block, List.replicate, Ne.symm this] at h
  | [a, b], y, h => by
    have ha := a.toNat_lt
    have hb := b.toNat_lt
    match y with
    | [] => exact absurd h (base32Encode_ne _ (by simp))
    | [a'] =>
      have := base32Char_ne_pad (n := b.toNat / 2 % 32) (by omega)
      simp [base32Encode, base32Block, List.replicate, this] at h
    | [a', b'] =>
      unfold base32Encode at h
      have := base32Block_inj2 (List.append_inj h (by simp [base32Block])).1
      rw [this.1, this.2]
    | [a', b', c'] =>
      have hc := c'.toNat_lt
      have := base32Char_ne_pad (n := c'.toNat % 16 * 2) (by omega)
      simp [base32Encode, base32Block, List.replicate, Ne.symm this] at h
    | [a', b', c', d'] =>
      have hd := d'.toNat_lt
      have := base32Char_ne_pad (n := d'.toNat / 4 % 32) (by omega)
      simp [base32Encode, base32Block, List.replicate, Ne.symm this] at h
    | a' :: b' :: c' :: d' :: e' :: y =>
      have := base32Char_ne_pad (n := e'.toNat % 32) (by omega)
      simp [base32Encode, base32Block, List.replicate, Ne.symm this] at h
  | [a, b, c], y, h => by
    have ha := a.toNat_lt
    have hb := b.toNat_lt
    have hc := c.toNat_lt
    match y with
    | [] => exact absurd h (base32Encode_ne _ (by simp))
    | [a'] =>
      have := base32Char_ne_pad (n := b.toNat / 2 % 32) (by omega)
      simp [base32Encode, base32Block, List.replicate, this] at h
    | [a', b'] =>
      have := base32Char_ne_pad (n := c.toNat % 16 * 2) (by omega)
      simp [base32Encode, base32Block, List.replicate, this] at h
    | [a', b', c'] =>
      have ha' := a'.toNat_lt
      have hb' := b'.toNat_lt
      have hc' := c'.toNat_lt
      simp only [base32Encode, base32Block, List.take_succ_cons, List.take_zero, List.cons_append, List.cons.injEq] at h
      have z : (0 : UInt8).toNat = 0 := rfl
      rw [z] at h
      have h0 := base32Char_inj (by omega) (by omega) h.1
      have h1 := base32Char_inj (by omega) (by omega) h.2.1
      have h2 := base32Char_inj (by omega) (by omega) h.2.2.1
      have h3 := base32Char_inj (by omega) (by omega) h.2.2.2.1
      have h4 := base32Char_inj (by omega) (by omega) h.2.2.2.2.1
      rw [← UInt8.toNat_inj.1 (show a.toNat = a'.toNat by omega), ← UInt8.toNat_inj.1 (show b.toNat = b'.toNat by omega),
        ← UInt8.toNat_inj.1 (show c.toNat = c'.toNat by omega)]
    | [a', b', c', d'] =>
      have hd := d'.toNat_lt
      have := base32Char_ne_pad (n := d'.toNat / 4 % 32) (by omega)
      simp [base32Encode, base32Block, List.replicate, Ne.symm this] at h
    | a' :: b' :: c' :: d' :: e' :: y =>
      have := base32Char_ne_pad (n := e'.toNat % 32) (by omega)
      simp [base32Encode, base32Block, List.replicate, Ne.symm this] at h
  | [a, b, c, d], y, h => by
    have ha := a.toNat_lt
    have hb := b.toNat_lt
    have hc := c.toNat_lt
    have hd := d.toNat_lt
    match y with
    | [] => exact absurd h (base32Encode_ne _ (by simp))
    | [a'] =>
      have := base32Char_ne_pad (n := b.toNat / 2 % 32) (by omega)
      simp [base32Encode, base32Block, List.replicate, this] at h
    | [a', b'] =>
      have := base32Char_ne_pad (n := d.toNat / 4 % 32) (by omega)
      simp [base32Encode, base32Block, List.replicate, this] at h
    | [a', b', c'] =>
      have := base32Char_ne_pad (n := d.toNat / 4 % 32) (by omega)
      simp [base32Encode, base32Block, List.replicate, this] at h
    | [a', b', c', d'] =>
      have ha' := a'.toNat_lt
      have hb' := b'.toNat_lt
      have hc' := c'.toNat_lt
      have hd' := d'.toNat_lt
      simp only [base32Encode, base32Block, List.take_succ_cons, List.take_zero, List.cons_append, List.cons.injEq] at h
      have z : (0 : UInt8).toNat = 0 := rfl
      rw [z] at h
      have h0 := base32Char_inj (by omega) (by omega) h.1
      have h1 := base32Char_inj (by omega) (by omega) h.2.1
      have h2 := base32Char_inj (by omega) (by omega) h.2.2.1
      have h3 := base32Char_inj (by omega) (by omega) h.2.2.2.1
      have h4 := base32Char_inj (by omega) (by omega) h.2.2.2.2.1
      have h5 := base32Char_inj (by omega) (by omega) h.2.2.2.2.2.1
      have h6 := base32Char_inj (by omega) (by omega) h.2.2.2.2.2.2.1
      rw [← UInt8.toNat_inj.1 (show a.toNat = a'.toNat by omega), ← UInt8.toNat_inj.1 (show b.toNat = b'.toNat by omega),
        ← UInt8.toNat_inj.1 (show c.toNat = c'.toNat by omega), ← UInt8.toNat_inj.1 (show d.toNat = d'.toNat by omega)]
    | a' :: b' :: c' :: d' :: e' :: y =>
      have := base32Char_ne_pad (n := e'.toNat % 32) (by omega)
      simp [base32Encode, base32Block, List.replicate, Ne.symm this] at h

/-- Texts with the same bytes differ in capitals only. -/
theorem hexValue_same (a b : UInt8) (n : Nat) (ha : hexValue a = some n) (hb : hexValue b = some n) : upperCase a = upperCase b := by
  have key : ∀ a : Fin 256, ∀ n : Fin 16, hexValue (UInt8.ofNat a) = some n.val → upperCase (UInt8.ofNat a) = UInt8.ofNat (if n.val < 10 then 48 + n else 55 + n) := by
    decide +kernel
  have hlt : ∀ a : Fin 256, ∀ n, hexValue (UInt8.ofNat a) = some n → n < 16 := by
    intro a
    have : ∀ a : Fin 256, ∀ n ∈ hexValue (UInt8.ofNat a), n < 16 := by decide +kernel
    exact this a
  have h1 := hlt ⟨a.toNat, a.toNat_lt⟩ n (by simpa using ha)
  have h2 := key ⟨a.toNat, a.toNat_lt⟩ ⟨n, h1⟩ (by simpa using ha)
  have h3 := key ⟨b.toNat, b.toNat_lt⟩ ⟨n, h1⟩ (by simpa using hb)
  simp only [UInt8.ofNat_toNat] at h2 h3
  rw [h2, h3]

theorem hexDecode_same : ∀ (s t x : Bytes), hexDecode s = some x → hexDecode t = some x → s.map upperCase = t.map upperCase
  | [], t, x, hs, ht => by
    simp only [hexDecode, Option.some.injEq] at hs
    subst hs
    have := hexDecode_length t [] ht
    rw [List.length_eq_zero_iff.1 this]
  | [_], _, _, hs, _ => by simp [hexDecode] at hs
  | a :: b :: s, t, x, hs, ht => by
    unfold hexDecode at hs
    simp only [bind, Option.bind_eq_some_iff] at hs
    obtain ⟨m, hm, n, hn, more, hmore, hs⟩ := hs
    simp only [Option.some.injEq] at hs
    subst hs
    match t with
    | [] => simp [hexDecode] at ht
    | [_] => simp [hexDecode] at ht
    | a' :: b' :: t =>
      unfold hexDecode at ht
      simp only [bind, Option.bind_eq_some_iff] at ht
      obtain ⟨m', hm', n', hn', more', hmore', ht⟩ := ht
      simp only [Option.some.injEq, List.cons.injEq] at ht
      obtain ⟨ht, rfl⟩ := ht
      have hlt : ∀ c k, hexValue c = some k → k < 16 := by
        intro c k h
        have : ∀ a : Fin 256, ∀ n ∈ hexValue (UInt8.ofNat a), n < 16 := by decide +kernel
        exact this ⟨c.toNat, c.toNat_lt⟩ k (by simpa using h)
      have h1 := hlt _ _ hm; have h2 := hlt _ _ hn; have h3 := hlt _ _ hm'; have h4 := hlt _ _ hn'
      have := congrArg UInt8.toNat ht
      rw [UInt8.toNat_ofNat_of_lt' (by show _ < 256; omega), UInt8.toNat_ofNat_of_lt' (by show _ < 256; omega)] at this
      have hmm : m' = m := by omega
      have hnn : n' = n := by omega
      subst hmm hnn
      simp only [List.map_cons]
      rw [hexValue_same a a' m' hm hm', hexValue_same b b' n' hn hn', hexDecode_same s t _ hmore hmore']

end Willow
