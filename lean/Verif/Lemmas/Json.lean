import Verif.Lemmas.Base64
import Verif.Spec.EntriesFile
import Verif.Lemmas.PropsEntriesFile

/-! The text of `entries.json`. -/

namespace Willow

open Spec Props

theorem base64Encode_plain (b : Bytes) : Plain (base64Encode b) := by
  obtain ⟨places, pad, h, -⟩ := base64Encode_text b
  intro c hc
  have hm : some c ∈ (base64Encode b).map some := List.mem_map_of_mem hc
  rw [h, List.mem_append] at hm
  rcases hm with hm | hm
  · obtain ⟨n, _, hn⟩ := List.mem_map.1 hm
    have key : ∀ c ∈ base64Alphabet, 32 ≤ c ∧ c < 127 ∧ c ≠ 34 ∧ c ≠ 92 := by decide +kernel
    exact key c (List.mem_of_getElem? hn)
  · obtain rfl : c = 61 := by simpa using (List.mem_replicate.1 hm).2
    decide

theorem decimal_value (n : Nat) : (decimal n).foldl (fun v c => 10 * v + (c.toNat - 48)) 0 = n := by
  fun_induction decimal n with
  | case1 n h =>
    have : (UInt8.ofNat (48 + n)).toNat = 48 + n := by
      rw [UInt8.toNat_ofNat']; omega
    simp only [List.foldl_cons, List.foldl_nil, this]
    omega
  | case2 n h ih =>
    have : (UInt8.ofNat (48 + n % 10)).toNat = 48 + n % 10 := by
      rw [UInt8.toNat_ofNat']; omega
    rw [List.foldl_append, ih]
    simp only [List.foldl_cons, List.foldl_nil, this]
    omega

theorem decimal_head (n : Nat) (h : 0 < n) : (decimal n).head? ≠ some 48 := by
  fun_induction decimal n with
  | case1 n hn =>
    intro hc
    have e : (UInt8.ofNat (48 + n)).toNat = 48 + n := by
      rw [UInt8.toNat_ofNat']; omega
    simp only [List.head?_cons, Option.some.injEq] at hc
    rw [hc] at e
    simp at e
    omega
  | case2 n hn ih =>
    have hl := decimal_length (n / 10)
    rw [List.head?_append]
    have := ih (by omega)
    cases hd : (decimal (n / 10)).head? with
    | none => simp [List.head?_eq_none_iff.1 hd] at hl
    | some x => rw [hd] at this; simpa using this

theorem decimal_json (n : Nat) : JsonText (.number n) (decimal n) := by
  refine .number ?_ ?_ ?_ (decimal_value n)
  · intro h
    have := decimal_length n
    simp [h] at this
  · intro c hc
    have := decimal_digits n c hc
    simpa [UInt8.le_iff_toNat_le] using this
  · intro h
    rcases Nat.eq_zero_or_pos n with rfl | hn
    · unfold decimal; rfl
    · exact absurd h (decimal_head n hn)

theorem items_json {α : Type} {item : α → Bytes} {value : α → Json} (x : α) (l : List α) (h : ∀ a ∈ x :: l, JsonText (value a) (item a)) :
    ∃ t, JsonItems ((x :: l).map value) t ∧ item x ++ jsonRest item l = t ++ [93] := by
  induction l generalizing x with
  | nil => exact ⟨item x, .one (h x (by simp)), rfl⟩
  | cons y l ih =>
    obtain ⟨t, h1, h2⟩ := ih y (fun a ha => h a (by simp_all))
    exact ⟨item x ++ [44] ++ t, .more (h x (by simp)) h1, by simp [jsonRest, h2]⟩

theorem array_json {α : Type} {item : α → Bytes} {value : α → Json} (l : List α) (h : ∀ a ∈ l, JsonText (value a) (item a)) :
    JsonText (.array (l.map value)) (jsonArray item l) := by
  cases l with
  | nil => exact .empty
  | cons x l =>
    obtain ⟨t, h1, h2⟩ := items_json x l h
    have := JsonText.array h1
    simp only [jsonArray, h2]
    simpa using this

theorem bytes_json (b : Bytes) : JsonText (.string (base64Encode b)) (jsonBytes b) := by
  have := JsonText.string (base64Encode_plain b)
  simpa [jsonBytes] using this

/-- The object for a key. -/
def keyJson (k : KdKey) : Json :=
  .object [("Timestamp".toUTF8.toList, .number k.pos.time.toNat), ("Subspace".toUTF8.toList, .string (base64Encode k.pos.subspace)),
    ("Path".toUTF8.toList, .array (k.pos.path.map fun c => .string (base64Encode c))),
    ("Fingerprint".toUTF8.toList, .string k.fingerprint)]

theorem key_json (k : KdKey) (h : Plain k.fingerprint) : JsonText (keyJson k) (jsonKey k) := by
  have p1 : Plain "Timestamp".toUTF8.toList := by unfold Plain; decide +kernel
  have p2 : Plain "Subspace".toUTF8.toList := by unfold Plain; decide +kernel
  have p3 : Plain "Path".toUTF8.toList := by unfold Plain; decide +kernel
  have p4 : Plain "Fingerprint".toUTF8.toList := by unfold Plain; decide +kernel
  have n1 : JsonName.timestamp = [123, 34] ++ "Timestamp".toUTF8.toList ++ [34, 58] := by decide +kernel
  have n2 : JsonName.subspace = [44, 34] ++ "Subspace".toUTF8.toList ++ [34, 58] := by decide +kernel
  have n3 : JsonName.path = [44, 34] ++ "Path".toUTF8.toList ++ [34, 58] := by decide +kernel
  have n4 : JsonName.fingerprint = [44, 34] ++ "Fingerprint".toUTF8.toList ++ [34, 58, 34] := by decide +kernel
  unfold keyJson jsonKey
  rw [n1, n2, n3, n4]
  generalize "Timestamp".toUTF8.toList = s1 at *
  generalize "Subspace".toUTF8.toList = s2 at *
  generalize "Path".toUTF8.toList = s3 at *
  generalize "Fingerprint".toUTF8.toList = s4 at *
  have := JsonText.object (.more p1 (decimal_json k.pos.time.toNat) (.more p2 (bytes_json k.pos.subspace)
    (.more p3 (array_json k.pos.path fun c _ => bytes_json c) (.one p4 (.string h)))))
  simpa using this

theorem keyJson_tells (k : KdKey) : TellsKey k (keyJson k) := by
  refine ⟨base64Encode k.pos.subspace, k.pos.path.map base64Encode, base64Encode_text _, ⟨by simp, ?_⟩, ?_⟩
  · intro i b t h1 h2
    rw [List.getElem?_map, h1] at h2
    cases h2
    exact base64Encode_text b
  · rw [List.map_map]
    rfl

theorem hexEncode_plain : ∀ b : Bytes, Plain (hexEncode b)
  | [] => fun _ h => nomatch h
  | x :: b => by
    have key : ∀ n : Fin 256, ((32 : UInt8) ≤ hexDigit (UInt8.ofNat n >>> 4) ∧ hexDigit (UInt8.ofNat n >>> 4) < 127 ∧
        hexDigit (UInt8.ofNat n >>> 4) ≠ 34 ∧ hexDigit (UInt8.ofNat n >>> 4) ≠ 92) ∧
        ((32 : UInt8) ≤ hexDigit (UInt8.ofNat n &&& 0x0f) ∧ hexDigit (UInt8.ofNat n &&& 0x0f) < 127 ∧
        hexDigit (UInt8.ofNat n &&& 0x0f) ≠ 34 ∧ hexDigit (UInt8.ofNat n &&& 0x0f) ≠ 92) := by decide +kernel
    have hb := key ⟨x.toNat, x.toNat_lt⟩
    rw [show UInt8.ofNat ((⟨x.toNat, x.toNat_lt⟩ : Fin 256) : Nat) = x from UInt8.ofNat_toNat] at hb
    intro c hc
    simp only [hexEncode, List.mem_cons] at hc
    rcases hc with rfl | rfl | hc
    · exact hb.1
    · exact hb.2
    · exact hexEncode_plain b c hc

theorem byCommands_plain {lib : KdLib} {sha : Bytes → Bytes} {ns : Bytes} (hs : ∀ b, (sha b).length = 32) {st : StoreState}
    (h : ByCommands (appStore lib sha ns) st) : ∀ k ∈ st.kd, Plain k.fingerprint := by
  obtain ⟨ops, h1, h2⟩ := h
  have hm := marked_run (appStore_ok lib sha ns hs) ops h1 (st := .empty) ⟨(fun e he => nomatch he), (fun k hk => nomatch hk)⟩ h2
  intro k hk
  rcases hm.2 k hk with hf | ⟨x, hf⟩
  · rw [hf]; intro c hc; cases hc
  · rw [hf]; exact hexEncode_plain _

end Willow
