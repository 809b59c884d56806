import Verif.Lemmas.FileNames
import Verif.Props.App

/-! Property C107: the names of payload files. -/

namespace Willow.Props

open Willow Spec

/-- C107: the name of the file of a payload is the base 32 text of the 32 bytes of its digest: 52
characters of the alphabet that are the digits of the digest, shifted by four bits, and four `=`. -/
theorem C107_name (lib : KdLib) (sha : Bytes → Bytes) (ns : Bytes) (payload : Bytes) (hs : (sha payload).length = 32) :
    ∃ digits : List Nat, digits.length = 52 ∧ (∀ d ∈ digits, d < 32) ∧
      ((appStore lib sha ns).fileKey ((appStore lib sha ns).hash payload)).map some =
        digits.map (alphabet32[·]?) ++ List.replicate 4 (some 61) ∧
      numeral 32 digits = 16 * numeral 256 ((sha payload).map UInt8.toNat) := by
  obtain ⟨ds, h1, h2, h3, h4⟩ := base32Encode_digits 6 (sha payload) hs
  refine ⟨ds, h1, h2, ?_, h4 0⟩
  have : (appStore lib sha ns).fileKey ((appStore lib sha ns).hash payload) = base32Encode (sha payload) := by
    show base32Encode ((hexDecode (hexEncode (sha payload))).getD []) = _
    rw [hexDecode_encode]
    rfl
  rw [this, h3, List.map_append, List.map_replicate, List.map_map]
  congr 1
  exact List.map_congr_left fun d hd => (base32Char_alphabet (h2 d hd)).symm

example : (toySha [0xff, 0x80]).length = 32 ∧
    appFileKey (hexEncode (toySha [0xff, 0x80])) = [55, 54] ++ List.replicate 50 65 ++ List.replicate 4 61 := by
  decide +kernel

/-- C107: in particular the name consists of 56 characters that are capitals, digits or `=`, so it
is the name of a file in the directory itself on every system. -/
theorem C107_plain (lib : KdLib) (sha : Bytes → Bytes) (ns : Bytes) (payload : Bytes) (hs : (sha payload).length = 32) :
    ((appStore lib sha ns).fileKey ((appStore lib sha ns).hash payload)).length = 56 ∧
    ∀ c ∈ (appStore lib sha ns).fileKey ((appStore lib sha ns).hash payload), c ∈ alphabet32 ∨ c = 61 := by
  obtain ⟨ds, h1, h2, h3, -⟩ := C107_name lib sha ns payload hs
  constructor
  · have := congrArg List.length h3
    simpa [h1] using this
  · intro c hc
    have : some c ∈ ds.map (alphabet32[·]?) ++ List.replicate 4 (some 61) := by
      rw [← h3]; exact List.mem_map.2 ⟨c, hc, rfl⟩
    rcases List.mem_append.1 this with h | h
    · obtain ⟨d, -, h⟩ := List.mem_map.1 h
      exact .inl (List.mem_of_getElem? h)
    · exact .inr (Option.some.inj (List.eq_of_mem_replicate h))

example : (appFileKey (hexEncode (toySha [1]))).length = 56 ∧ 47 ∉ appFileKey (hexEncode (toySha [1])) := by decide +kernel

/-- C107: a text is the name of a digest exactly if it is an even number of hexadecimal digits, in
capitals or not, which makes no difference; any other text has the empty name. -/
theorem C107_text (s : Bytes) :
    appFileKey (s.map upperCase) = appFileKey s ∧
    (appFileKey s ≠ [] ↔ s ≠ [] ∧ s.length % 2 = 0 ∧ ∀ c ∈ s, IsHexDigit c) := by
  refine ⟨by unfold appFileKey; rw [hexDecode_upper], ?_⟩
  rw [← hexDecode_isSome]
  unfold appFileKey
  cases hd : hexDecode s with
  | none => simp [base32Encode]
  | some b =>
    have hl := hexDecode_length s b hd
    constructor
    · intro h
      refine ⟨?_, rfl⟩
      rintro rfl
      simp only [hexDecode, Option.some.injEq] at hd
      subst hd
      exact h rfl
    · rintro ⟨h, -⟩
      refine base32Encode_ne _ ?_
      rintro h0
      simp only [Option.getD_some] at h0
      subst h0
      simp at hl
      exact h hl

example : appFileKey [97, 66] = appFileKey [65, 66] ∧ appFileKey [97, 66] ≠ [] ∧ appFileKey [97] = [] ∧ appFileKey [97, 103] = [] := by
  decide +kernel

/-- C107: two texts, of which one has a name, have the same name exactly if they are equal but for
capitals. -/
theorem C107_same (s t : Bytes) (hs : appFileKey s ≠ []) : appFileKey s = appFileKey t ↔ s.map upperCase = t.map upperCase := by
  constructor
  · intro h
    have ht : appFileKey t ≠ [] := h ▸ hs
    have h1 := hexDecode_isSome s
    have h2 := hexDecode_isSome t
    have h3 := ((C107_text s).2.1 hs).2
    have h4 := ((C107_text t).2.1 ht).2
    obtain ⟨x, hx⟩ := Option.isSome_iff_exists.1 (h1.2 h3)
    obtain ⟨y, hy⟩ := Option.isSome_iff_exists.1 (h2.2 h4)
    unfold appFileKey at h
    rw [hx, hy] at h
    have : x = y := base32Encode_injective x y h
    subst this
    exact hexDecode_same s t x hx hy
  · intro h
    rw [← (C107_text s).1, ← (C107_text t).1, h]

example : appFileKey [48, 97] ≠ [] ∧ appFileKey [48, 97] ≠ appFileKey [48, 98] ∧ appFileKey [48, 97] ≠ appFileKey [48, 48, 48, 97] := by
  decide +kernel

end Willow.Props
