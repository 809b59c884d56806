import Verif.Lemmas.Encoding
import Verif.Props.Successor

/-! Property theorems C16-C20, C23, C24: integers, paths, storage keys and values. -/

namespace Willow.Props
open Willow Spec

/-! ## C16 -/

/-- C16: compact integers round-trip. -/
theorem C16_roundtrip (n : Nat) (h : n < 2 ^ 64) : decodeIntMax64 (encodeIntMax64 n) = .ok n :=
  decode_encodeIntMax64 h

example : (2 ^ 40 + 7 : Nat) < 2 ^ 64 ∧ decodeIntMax64 (encodeIntMax64 (2 ^ 40 + 7)) = .ok (2 ^ 40 + 7) := by decide

/-- C16: the encoding has the announced width, which is 1, 2, 4 or 8, and is the smallest of
these in which the number fits. -/
theorem C16_minimal (n : Nat) (h : n < 2 ^ 64) :
    (encodeIntMax64 n).length = getWidthMax64Int n ∧
    (encodeIntMax64 n).length ∈ [1, 2, 4, 8] ∧
    n < 256 ^ (encodeIntMax64 n).length ∧
    ∀ w ∈ [1, 2, 4, 8], n < 256 ^ w → (encodeIntMax64 n).length ≤ w := by
  rw [encodeIntMax64_length]
  refine ⟨rfl, ?_, getWidthMax64Int_bound h, ?_⟩
  · rcases getWidthMax64Int_cases n with h | h | h | h <;> simp [h]
  · intro w hw hn
    simp only [List.mem_cons, List.not_mem_nil, or_false] at hw
    unfold getWidthMax64Int
    rcases hw with rfl | rfl | rfl | rfl <;> (repeat' split) <;> omega

example : encodeIntMax64 256 = [1, 0] ∧ encodeIntMax64 (2 ^ 32) = [0, 0, 0, 1, 0, 0, 0, 0] := by decide

/-! ## C17 -/

/-- C17: bounded integers round-trip, in the width that belongs to the maximum. -/
theorem C17_roundtrip (n max : Nat) (h : n ≤ max) (hm : max < 2 ^ 32) :
    decodeIntMax32 (encodeIntMax32 n max) max = .ok n ∧
    (encodeIntMax32 n max).length = getWidthMax32Int max :=
  ⟨decode_encodeIntMax32 h (by omega), encodeIntMax32_length n max⟩

example : encodeIntMax32 70000 100000 = [1, 0x11, 0x70] ∧
    decodeIntMax32 [1, 0x11, 0x70] 100000 = .ok 70000 := by decide

/-- C17: a byte string of any other length is rejected. -/
theorem C17_rejects (bs : Bytes) (max : Nat) (h : bs.length ≠ getWidthMax32Int max) :
    decodeIntMax32 bs max = .err := by
  unfold decodeIntMax32
  simp [h]

example : ([1, 2] : Bytes).length ≠ getWidthMax32Int 100000 := by decide

/-! ## C18 -/

/-- C18, partial: decoding returns the path and the bytes it occupied, whatever follows.
Missing: paths that are not short (2^32 components or more, or a component of 2^32 bytes or more; see `C18_violated_huge`). -/
theorem C18_roundtrip_partial (p : PathParams) (path : Path)
    (hv : ShortPath p path) (rest : Bytes) :
    decodePath p (encodePath p path ++ rest) = .ok ((encodePath p path).length, path) :=
  decodePath_encode p path hv (shortPath_small hv) rest

example : ShortPath appParams [[1, 2], [], [3]] ∧
    decodePath appParams (encodePath appParams [[1, 2], [], [3]] ++ [9, 9]) =
      .ok ((encodePath appParams [[1, 2], [], [3]]).length, [[1, 2], [], [3]]) :=
  ⟨⟨⟨by decide, by decide, by decide⟩, by decide, by decide⟩, by decide⟩

/-- C18: a path is decoded from its encoding, whatever follows, exactly if it has fewer than 2^32 components
and each is shorter than 2^32 bytes (whatever the limits). -/
theorem C18_exact (p : PathParams) (path : Path) (hv : ValidPath p path) (rest : Bytes) :
    decodePath p (encodePath p path ++ rest) = .ok ((encodePath p path).length, path) ↔
      path.length < 2 ^ 32 ∧ ∀ c ∈ path, c.length < 2 ^ 32 :=
  ⟨fun h => let h' := decodePath_small h; ⟨h'.count, h'.comp⟩, fun h => decodePath_encode p path hv ⟨h.1, h.2⟩ rest⟩

example : ValidPath appParams [[1, 2], [3]] ∧ ([[1, 2], [3]] : Path).length < 2 ^ 32 := ⟨⟨by decide, by decide, by decide⟩, by decide⟩

/-- C18: the precomputed length is the length of the encoding. -/
theorem C18_length (p : PathParams) (path : Path) : encodePathLength p path = (encodePath p path).length :=
  encodePathLength_eq p path

example : encodePathLength tinyParams [[1, 2], [3]] = 6 ∧ encodePathLength appParams [[1, 2], [3]] = (encodePath appParams [[1, 2], [3]]).length := by
  decide

/-- C18, partial: path encodings are prefix-free. Missing: paths that are not short. -/
theorem C18_prefix_free_partial (p : PathParams) (a b : Path)
    (ha : ShortPath p a) (hb : ShortPath p b) (h : encodePath p a <+: encodePath p b) : a = b := by
  obtain ⟨t, ht⟩ := h
  exact (encodePath_inj (s := t) (t := []) ha hb (shortPath_small ha) (shortPath_small hb)
    (by simpa using ht)).1

example : ShortPath tinyParams [[1, 2], [3]] ∧ tinyParams.cc < 2 ^ 32 ∧
    encodePath tinyParams [[1, 2], [3]] = [2, 2, 1, 2, 1, 3] :=
  ⟨⟨⟨by decide, by decide, by decide⟩, by decide, by decide⟩, by decide, by decide⟩

/-- Limits allowing one component of 2^32 bytes. -/
def hugeParams : PathParams := { bits := 64, cc := 1, cl := 2 ^ 32, pl := 2 ^ 32 }

/-- C18 is violated for a component of 2^32 bytes: its length is cut to 32 bits, and decoding
gives back the path with one empty component. -/
theorem C18_violated_huge (c : Bytes) (hc : c.length = 2 ^ 32) :
    ValidPath hugeParams [c] ∧ decodePath hugeParams (encodePath hugeParams [c]) = .ok (5, [[]]) ∧ [c] ≠ [[]] := by
  refine ⟨⟨by simp [hugeParams], ?_, ?_⟩, ?_, ?_⟩
  · simp [hc, hugeParams]
  · simp [pathBytes, hc, hugeParams]
  · have e : encodePath hugeParams [c] = encodePath hugeParams [[]] ++ c := by
      have h0 : encodeIntMax32 (hugeParams.conv c.length) hugeParams.cl = encodeIntMax32 (hugeParams.conv ([] : Bytes).length) hugeParams.cl := by
        rw [hc]; decide
      simp only [encodePath, encodeComponents, h0]
      simp
    rw [e, decodePath_encode hugeParams [[]] ⟨by decide, by decide, by decide⟩ ⟨by decide, by decide⟩]
    rfl
  · intro h
    simp at h
    subst h
    simp at hc

example : ∃ c : Bytes, c.length = 2 ^ 32 := ⟨List.replicate (2 ^ 32) 0, List.length_replicate ..⟩

/-! ## C19 -/

/-- C19 is violated: the encoder crashes exactly when the paths do not share their first component, as when
one of them is empty. -/
theorem C19_violated (p : PathParams) (a r : Path) :
    encodeRelativePath p a r = .crash ↔ ¬ ∃ c, a.head? = some c ∧ r.head? = some c := by
  refine ⟨fun h hsh => ?_, encodeRelativePath_crash⟩
  obtain ⟨rel, hrel⟩ := encodeRelativePath_ok (p := p) hsh
  rw [hrel] at h
  cases h

example : encodeRelativePath tinyParams [[1]] [[2]] = .crash ∧ encodeRelativePath tinyParams [] [] = .crash ∧
    encodeRelativePath tinyParams [[1], [2]] [[1]] ≠ .crash := by decide

/-- C19, partial: the round trip for paths that share at least their first component.
Missing: pairs with no common component (see `C19_violated`), paths that are not short. -/
theorem C19_roundtrip_partial (p : PathParams) (a r : Path)
    (ha : ShortPath p a) (h : ∃ c, a.head? = some c ∧ r.head? = some c) :
    ∃ enc, encodeRelativePath p a r = .ok enc ∧ decodeRelativePath p enc r = .ok a := by
  obtain ⟨h1, h2, h3⟩ := commonPrefixIndex_spec a r
  have hpos : commonPrefixIndex a r ≠ 0 := by
    obtain ⟨c, hc1, hc2⟩ := h
    match a, r, hc1, hc2 with
    | _ :: cs, _ :: ds, rfl, rfl => have := @commonPrefixIndex_pos c cs ds; omega
  generalize hk : commonPrefixIndex a r = k at *
  have hcp : commonPrefix a r = .ok (a.take k) := by
    simp only [commonPrefix, hk, if_neg hpos, slice_take _ _ h1]
  have hlen : (a.take k).length = k := by simp [h1]
  have hkcc : k ≤ p.cc := Nat.le_trans h1 ha.count
  refine ⟨encodeIntMax32 k p.cc ++ encodePath p (a.drop k), ?_, ?_⟩
  · simp only [encodeRelativePath, hcp, hlen, sliceFrom_drop _ _ h1, Res.ok_bind, conv_of_le hkcc p.hcc]
  · have hv : ShortPath p (a.drop k) := by
      refine ⟨⟨by have := ha.count; simp; omega, fun c hc => ha.comp c (List.mem_of_mem_drop hc), ?_⟩,
        by have := ha.few; simp; omega, fun c hc => ha.short c (List.mem_of_mem_drop hc)⟩
      have h4 := ha.total
      rw [← List.take_append_drop k a, pathBytes_append] at h4
      omega
    unfold decodeRelativePath
    dsimp only
    rw [slice_append_left _ _ _ (encodeIntMax32_length _ _).symm]
    simp only [Res.ok_bind, decode_encodeIntMax32 hkcc (Nat.lt_of_le_of_lt h1 ha.few), slice_take _ _ h2]
    rw [sliceFrom_append _ _ _ (encodeIntMax32_length _ _).symm]
    have := decodePath_encode p (a.drop k) hv (shortPath_small hv) []
    simp only [List.append_nil] at this
    simp only [Res.ok_bind, this, ← h3, List.take_append_drop]

example : ShortPath tinyParams [[1, 2], [3]] ∧
    (∃ c, ([[1, 2], [3]] : Path).head? = some c ∧ ([[1, 2], [4], [5]] : Path).head? = some c) ∧
    encodeRelativePath tinyParams [[1, 2], [3]] [[1, 2], [4], [5]] = .ok [1, 1, 1, 3] :=
  ⟨⟨⟨by decide, by decide, by decide⟩, by decide, by decide⟩, ⟨[1, 2], by decide, by decide⟩, by decide⟩

/-! ## C20 -/

/-- C20 is violated for every pair of paths: whenever the encoder writes an encoding, the
precomputed length is smaller than what is written (components are counted instead of bytes,
and the count field is forgotten). -/
theorem C20_violated (p : PathParams) (a r : Path) (enc : Bytes) (h : encodeRelativePath p a r = .ok enc) :
    ∃ n, encodePathRelativeLength p a r = .ok n ∧ n < enc.length := by
  unfold encodeRelativePath at h
  unfold encodePathRelativeLength
  cases hcp : commonPrefix a r with
  | ok l =>
    rw [hcp] at h
    simp only at h ⊢
    rw [Res.bind_eq_ok] at h
    obtain ⟨suffix, hs, h⟩ := h
    simp only [Res.ok.injEq] at h
    refine ⟨_, by rw [hs]; rfl, ?_⟩
    rw [← h, List.length_append, encodeIntMax32_length, encodePath_length]
    have h1 := getWidthMax32Int_pos p.cl
    have h2 := getWidthMax32Int_pos p.cc
    have : suffix.length * 1 ≤ suffix.length * getWidthMax32Int p.cl := Nat.mul_le_mul_left _ h1
    omega
  | err => simp [hcp] at h
  | crash => simp [hcp] at h
  | block => simp [hcp] at h

example : encodeRelativePath tinyParams [[1, 2], [3]] [[1, 2]] = .ok [1, 1, 1, 3] ∧
    encodePathRelativeLength tinyParams [[1, 2], [3]] [[1, 2]] = .ok 2 := by decide

/-- C20 is violated: the length of a path relative to one with which it does not share the first
component cannot be had: asking for it ends the process. -/
theorem C20_violated_apart (p : PathParams) (a r : Path) (h : ∀ c, ¬ (a.head? = some c ∧ r.head? = some c)) :
    encodePathRelativeLength p a r = .crash := by
  have h0 : commonPrefixIndex a r = 0 := by
    match a, r, h with
    | [], _, _ => simp [commonPrefixIndex]
    | _ :: _, [], _ => simp [commonPrefixIndex]
    | c :: cs, d :: ds, h =>
      unfold commonPrefixIndex
      rw [if_pos]
      intro he
      have := (decides_bytes.eq_iff c d).1 he
      exact h c ⟨rfl, by rw [this]; rfl⟩
  simp [encodePathRelativeLength, commonPrefix, h0]

example : encodePathRelativeLength tinyParams [[1, 2], [3]] [[1, 3], [3]] = .crash :=
  C20_violated_apart _ _ _ (by simp)

/-- C20, partial: the precomputed length is the width of the prefix length plus the number of
remaining components. Missing: the count field, the length fields and the bytes of the
components (see `C20_violated`: with these it is never the number of bytes written). -/
theorem C20_deficit_partial (p : PathParams) (a r : Path) (enc : Bytes) (n : Nat)
    (h : encodeRelativePath p a r = .ok enc) (hn : encodePathRelativeLength p a r = .ok n) :
    enc.length = n + getWidthMax32Int p.cc + (a.length - commonPrefixIndex a r) * (getWidthMax32Int p.cl - 1) +
      pathBytes (a.drop (commonPrefixIndex a r)) := by
  unfold encodeRelativePath at h
  unfold encodePathRelativeLength at hn
  have hcp : commonPrefix a r = .ok (a.take (commonPrefixIndex a r)) ∨ commonPrefix a r = .err := by
    unfold commonPrefix
    dsimp only
    split
    · exact .inr rfl
    · exact .inl (slice_take _ _ (commonPrefixIndex_spec a r).1)
  have hle := (commonPrefixIndex_spec a r).1
  rcases hcp with hcp | hcp
  · rw [hcp] at h hn
    have hl : (a.take (commonPrefixIndex a r)).length = commonPrefixIndex a r := by simp [hle]
    simp only [hl, sliceFrom_drop _ _ hle, Res.ok_bind, Res.ok.injEq] at h hn
    rw [← h, ← hn, List.length_append, encodeIntMax32_length, encodePath_length, List.length_drop]
    generalize hx : a.length - commonPrefixIndex a r = x
    have h1 := getWidthMax32Int_pos p.cl
    have : x * getWidthMax32Int p.cl = x * (getWidthMax32Int p.cl - 1) + x := by
      rw [← Nat.mul_succ]; congr 1; omega
    omega
  · simp [hcp] at h

example : encodeRelativePath tinyParams [[1, 2], [3, 4]] [[1, 2]] = .ok [1, 1, 2, 3, 4] ∧
    encodePathRelativeLength tinyParams [[1, 2], [3, 4]] [[1, 2]] = .ok 2 ∧
    pathBytes (([[1, 2], [3, 4]] : Path).drop (commonPrefixIndex [[1, 2], [3, 4]] [[1, 2]])) = 2 := by decide

/-! ## C23 -/

/-- C23, partial: a storage key decodes to its position. Missing: paths that are not short
(see `C23_exact`, `C23_violated_huge`). -/
theorem C23_roundtrip_partial (p : PathParams) (e : Position)
    (hv : ShortPath p e.path) : decodeKey p (encodeKey p e) = .ok e := by
  unfold decodeKey encodeKey bigIntToBytes
  rw [putU64_eq, List.append_assoc, slice_append_left _ _ _ (beBytes_length _ _).symm,
    sliceFrom_append _ _ _ (beBytes_length _ _).symm]
  simp only [Res.ok_bind, C18_roundtrip_partial p e.path hv]
  rw [← List.append_assoc, sliceFrom_append _ _ _ (by simp)]
  have ht : e.time.toNat % 256 ^ 8 = e.time.toNat := Nat.mod_eq_of_lt e.time.toNat_lt
  simp [getBE_beBytes, ht]

example : ShortPath tinyParams [[1, 2], [3]] ∧ decodeKey tinyParams (encodeKey tinyParams ⟨[7, 8], [[1, 2], [3]], 300⟩) = .ok ⟨[7, 8], [[1, 2], [3]], 300⟩ :=
  ⟨⟨⟨by decide, by decide, by decide⟩, by decide, by decide⟩, by decide⟩

/-- C23: a key decodes to its position exactly if the path has fewer than 2^32 components, each shorter than
2^32 bytes (whatever the limits). -/
theorem C23_exact (p : PathParams) (e : Position) (hv : ValidPath p e.path) :
    decodeKey p (encodeKey p e) = .ok e ↔ e.path.length < 2 ^ 32 ∧ ∀ c ∈ e.path, c.length < 2 ^ 32 := by
  constructor
  · intro h
    unfold decodeKey at h
    obtain ⟨_, _, h⟩ := Res.bind_eq_ok.1 h
    obtain ⟨_, _, h⟩ := Res.bind_eq_ok.1 h
    obtain ⟨r, h1, h⟩ := Res.bind_eq_ok.1 h
    obtain ⟨_, _, h⟩ := Res.bind_eq_ok.1 h
    have h2 := decodePath_small h1
    rw [← Res.ok.inj h]
    exact ⟨h2.count, h2.comp⟩
  · intro hs
    unfold decodeKey encodeKey bigIntToBytes
    rw [putU64_eq, List.append_assoc, slice_append_left _ _ _ (beBytes_length _ _).symm,
      sliceFrom_append _ _ _ (beBytes_length _ _).symm]
    simp only [Res.ok_bind, decodePath_encode p e.path hv ⟨hs.1, hs.2⟩]
    rw [← List.append_assoc, sliceFrom_append _ _ _ (by simp)]
    have ht : e.time.toNat % 256 ^ 8 = e.time.toNat := Nat.mod_eq_of_lt e.time.toNat_lt
    simp [getBE_beBytes, ht]

example : ValidPath hugeParams [[1, 2, 3]] ∧ decodeKey hugeParams (encodeKey hugeParams ⟨[9], [[1, 2, 3]], 7⟩) = .ok ⟨[9], [[1, 2, 3]], 7⟩ :=
  ⟨⟨by decide, by decide, by decide⟩, by decide +kernel⟩

/-- C23 is violated for components of 2^32 bytes: two positions (with valid paths) share a key, so that storing
an entry at one overwrites the entry at the other. -/
theorem C23_violated_huge (c s : Bytes) (t : UInt64) (hc : c.length = 2 ^ 32) :
    ValidPath hugeParams [c] ∧ ValidPath hugeParams [[]] ∧
    encodeKey hugeParams ⟨s, [c], t⟩ = encodeKey hugeParams ⟨c ++ s, [[]], t⟩ ∧ [c] ≠ [[]] := by
  obtain ⟨h1, _, h2⟩ := C18_violated_huge c hc
  refine ⟨h1, ⟨by decide, by decide, by decide⟩, ?_, h2⟩
  have h0 : encodeIntMax32 (hugeParams.conv c.length) hugeParams.cl = encodeIntMax32 (hugeParams.conv ([] : Bytes).length) hugeParams.cl := by
    rw [hc]; decide
  simp only [encodeKey, encodePath, encodeComponents, h0]
  simp

example : ∃ c : Bytes, c.length = 2 ^ 32 := ⟨List.replicate (2 ^ 32) 0, List.length_replicate ..⟩

/-- C23, partial: distinct positions have distinct keys. -/
theorem C23_injective_partial (p : PathParams) (a b : Position)
    (ha : ShortPath p a.path) (hb : ShortPath p b.path) (h : encodeKey p a = encodeKey p b) : a = b := by
  have h1 := C23_roundtrip_partial p a ha
  rw [h, C23_roundtrip_partial p b hb] at h1
  exact (Res.ok.inj h1).symm

example : ShortPath tinyParams [[1, 2], [3]] ∧ ShortPath tinyParams [[1, 2]] ∧
    encodeKey tinyParams ⟨[7], [[1, 2], [3]], 300⟩ ≠ encodeKey tinyParams ⟨[1, 3, 7], [[1, 2]], 300⟩ :=
  ⟨⟨⟨by decide, by decide, by decide⟩, by decide, by decide⟩, ⟨⟨by decide, by decide, by decide⟩, by decide, by decide⟩, by decide⟩

/-- C23: keys sort by timestamp. -/
theorem C23_sorted (p : PathParams) (a b : Position) (h : a.time.toNat < b.time.toNat) :
    BytesLt (encodeKey p a) (encodeKey p b) := by
  unfold encodeKey bigIntToBytes
  rw [putU64_eq, putU64_eq, List.append_assoc, List.append_assoc]
  exact beBytes_lt h b.time.toNat_lt _ _

example : ValidPath tinyParams (⟨[7], [[1, 2], [3]], 256⟩ : Position).path ∧
    encodeKey tinyParams ⟨[7], [[1, 2], [3]], 256⟩ = [0, 0, 0, 0, 0, 0, 1, 0, 2, 2, 1, 2, 1, 3, 7] ∧
    (⟨[7], [], 255⟩ : Position).time.toNat < (⟨[7], [[1, 2], [3]], 256⟩ : Position).time.toNat :=
  ⟨⟨by decide, by decide, by decide⟩, by decide, by decide⟩

/-! ## C24 -/

/-- C24: stored values round-trip (digests fit in memory, so their length fits in 64 bits). -/
theorem C24_roundtrip (v : Values) (h1 : v.payloadDigest.length < 2 ^ 64) (h2 : v.authDigest.length < 2 ^ 64) :
    decodeValues (encodeValues v) = .ok v := by
  have key : ∀ (s rest : Bytes), s.length < 2 ^ 64 → bytesToString (stringToBytes s ++ rest) = .ok (s, rest) := by
    intro s rest h
    unfold bytesToString stringToBytes
    rw [putU64_eq, List.append_assoc, slice_append_left _ _ _ (beBytes_length _ _).symm]
    have : s.length % 256 ^ 8 = s.length := Nat.mod_eq_of_lt h
    simp only [Res.ok_bind, getBE_beBytes, this]
    rw [slice_mid _ _ _ _ _ (by simp) (by simp), ← List.append_assoc, sliceFrom_append _ _ _ (by simp)]
    rfl
  unfold decodeValues encodeValues bigIntToBytes
  rw [putU64_eq, List.append_assoc, slice_append_left _ _ _ (beBytes_length _ _).symm,
    sliceFrom_append _ _ _ (beBytes_length _ _).symm]
  have k2 := key v.authDigest [] h2
  simp only [List.append_nil] at k2
  simp only [Res.ok_bind, key _ _ h1, k2, getBE_beBytes]
  have ht : v.payloadLength.toNat % 256 ^ 8 = v.payloadLength.toNat := Nat.mod_eq_of_lt v.payloadLength.toNat_lt
  simp [ht]

example : decodeValues (encodeValues ⟨300, [1, 2, 3], []⟩) = .ok ⟨300, [1, 2, 3], []⟩ := by decide

end Willow.Props
