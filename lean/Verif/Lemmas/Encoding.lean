import Verif.Model.Keys
import Verif.Lemmas.Paths

/-! Lemmas on integer and path encodings. -/

namespace Willow
open Spec

/-! ### Slices -/

theorem slice_append_left {α : Type} (a b : List α) (n : Nat) (h : n = a.length) :
    slice (a ++ b) 0 n = .ok a := by
  subst h
  simp [slice]

theorem slice_mid {α : Type} (a b c : List α) (i j : Nat) (hi : i = a.length) (hj : j = a.length + b.length) :
    slice (a ++ (b ++ c)) i j = .ok b := by
  subst hi hj
  unfold slice
  rw [if_pos (by simp)]
  simp

theorem sliceFrom_append {α : Type} (a b : List α) (n : Nat) (h : n = a.length) :
    sliceFrom (a ++ b) n = .ok b := by
  subst h
  unfold sliceFrom slice
  rw [if_pos (by simp)]
  simp

theorem slice_take {α : Type} (a : List α) (n : Nat) (h : n ≤ a.length) : slice a 0 n = .ok (a.take n) := by
  simp [slice, h]

theorem sliceFrom_drop {α : Type} (a : List α) (n : Nat) (h : n ≤ a.length) : sliceFrom a n = .ok (a.drop n) := by
  unfold sliceFrom slice
  rw [if_pos ⟨h, Nat.le_refl _⟩, List.take_of_length_le (by simp)]

/-! ### Big-endian numbers -/

theorem byteOf_toNat (x : Nat) : (byteOf x).toNat = x % 256 := by simp [byteOf]

/-- `n` bytes of `x`, most significant first. -/
def beBytes : Nat → Nat → Bytes
  | 0, _ => []
  | n + 1, x => byteOf (x / 256 ^ n) :: beBytes n x

@[simp] theorem beBytes_length : ∀ n x, (beBytes n x).length = n
  | 0, _ => rfl
  | n + 1, x => by simp [beBytes, beBytes_length n x]

theorem foldl_be (bs : Bytes) : ∀ acc : Nat,
    bs.foldl (fun acc b => acc * 256 + b.toNat) acc = acc * 256 ^ bs.length + getBE bs := by
  induction bs with
  | nil => simp [getBE]
  | cons b bs ih =>
    intro acc
    simp only [List.foldl_cons, List.length_cons, getBE]
    rw [ih, ih (0 * 256 + b.toNat), Nat.pow_succ]
    simp only [Nat.add_mul, Nat.zero_mul, Nat.zero_add, Nat.mul_assoc, Nat.add_assoc]
    rw [Nat.mul_comm 256]

theorem getBE_cons (b : UInt8) (bs : Bytes) : getBE (b :: bs) = b.toNat * 256 ^ bs.length + getBE bs := by
  have := foldl_be bs (0 * 256 + b.toNat)
  simpa [getBE] using this

theorem getBE_beBytes : ∀ n x, getBE (beBytes n x) = x % 256 ^ n
  | 0, x => by simp [beBytes, getBE, Nat.mod_one]
  | n + 1, x => by
    rw [beBytes, getBE_cons, getBE_beBytes n x, beBytes_length, byteOf_toNat]
    rw [Nat.pow_succ, Nat.mod_mul, Nat.mul_comm (256 ^ n), Nat.add_comm]

theorem getBE_lt : ∀ bs : Bytes, getBE bs < 256 ^ bs.length
  | [] => by simp [getBE]
  | b :: bs => by
    rw [getBE_cons, List.length_cons, Nat.pow_succ]
    have h1 := getBE_lt bs
    have h2 := b.toNat_lt
    have h3 : b.toNat * 256 ^ bs.length ≤ 255 * 256 ^ bs.length := Nat.mul_le_mul_right _ (by omega)
    omega

theorem putU16_eq (x : Nat) : putU16 x = beBytes 2 x := by simp [putU16, beBytes]
theorem putU32_eq (x : Nat) : putU32 x = beBytes 4 x := by simp [putU32, beBytes]
theorem putU64_eq (x : Nat) : putU64 x = beBytes 8 x := by simp [putU64, beBytes]

theorem beBytes_lt {n x y : Nat} : x < y → y < 256 ^ n → ∀ s t : Bytes, BytesLt (beBytes n x ++ s) (beBytes n y ++ t) := by
  induction n generalizing x y with
  | zero => intro h1 h2; simp at h2; omega
  | succ n ih =>
    intro h1 h2 s t
    have hx : x / 256 ^ n < 256 := Nat.div_lt_of_lt_mul (by rw [Nat.pow_succ] at h2; omega)
    have hy : y / 256 ^ n < 256 := Nat.div_lt_of_lt_mul (by rw [Nat.pow_succ] at h2; omega)
    have hle : x / 256 ^ n ≤ y / 256 ^ n := Nat.div_le_div_right (Nat.le_of_lt h1)
    rcases Nat.lt_or_ge (x / 256 ^ n) (y / 256 ^ n) with h | h
    · left
      show (byteOf _).toNat < (byteOf _).toNat
      rw [byteOf_toNat, byteOf_toNat, Nat.mod_eq_of_lt hx, Nat.mod_eq_of_lt hy]
      exact h
    · have he : x / 256 ^ n = y / 256 ^ n := by omega
      right
      refine ⟨by rw [he], ?_⟩
      have h3 := Nat.div_add_mod x (256 ^ n)
      have h4 := Nat.div_add_mod y (256 ^ n)
      have h5 : x % 256 ^ n < y % 256 ^ n := by rw [he] at h3; omega
      have hmod : ∀ m z, m ≤ n → beBytes m (z % 256 ^ n) = beBytes m z := by
        intro m
        induction m with
        | zero => intros; rfl
        | succ m ihm =>
          intro z hm
          rw [beBytes, beBytes, ihm z (by omega)]
          congr 1
          apply UInt8.toNat_inj.mp
          rw [byteOf_toNat, byteOf_toNat]
          have hp : 256 ^ n = 256 ^ m * 256 * 256 ^ (n - m - 1) := by
            rw [← Nat.pow_succ, ← Nat.pow_add]; congr 1; omega
          rw [hp, Nat.mul_assoc, Nat.mod_mul_right_div_self, Nat.mod_mul_right_mod]
      have := ih h5 (Nat.mod_lt _ (Nat.pow_pos (by decide))) s t
      rwa [hmod n x (Nat.le_refl _), hmod n y (Nat.le_refl _)] at this

/-! ### Bounded integers -/

theorem getWidthMax32Int_cases (n : Nat) : getWidthMax32Int n = 1 ∨ getWidthMax32Int n = 2 ∨
    getWidthMax32Int n = 3 ∨ getWidthMax32Int n = 4 := by
  unfold getWidthMax32Int; split <;> (try split) <;> (try split) <;> simp

theorem encodeIntMax32_eq (num max : Nat) : encodeIntMax32 num max = beBytes (getWidthMax32Int max) num := by
  unfold encodeIntMax32
  rcases getWidthMax32Int_cases max with h | h | h | h <;> rw [h] <;>
    simp [putU16_eq, putU32_eq, beBytes]

theorem encodeIntMax32_length (num max : Nat) : (encodeIntMax32 num max).length = getWidthMax32Int max := by
  rw [encodeIntMax32_eq, beBytes_length]

theorem decodeIntMax32_eq (bytes : Bytes) (max : Nat) (h : bytes.length = getWidthMax32Int max) :
    decodeIntMax32 bytes max = .ok (getBE bytes) := by
  unfold decodeIntMax32
  simp only [h, ne_eq, not_true_eq_false, if_false]
  rcases getWidthMax32Int_cases max with hw | hw | hw | hw <;> rw [hw] at h ⊢ <;> simp only
  match bytes, h with
  | [a, b, c], _ => simp [getBE]

theorem getWidthMax32Int_bound {num max : Nat} (h : num ≤ max) (hm : num < 2 ^ 32) :
    num < 256 ^ getWidthMax32Int max := by
  unfold getWidthMax32Int
  split
  · omega
  · split
    · omega
    · split <;> omega

theorem decode_encodeIntMax32 {num max : Nat} (h : num ≤ max) (hm : num < 2 ^ 32) :
    decodeIntMax32 (encodeIntMax32 num max) max = .ok num := by
  rw [decodeIntMax32_eq _ _ (encodeIntMax32_length _ _), encodeIntMax32_eq, getBE_beBytes,
    Nat.mod_eq_of_lt (getWidthMax32Int_bound h hm)]

theorem getWidthMax32Int_pos (max : Nat) : 0 < getWidthMax32Int max := by
  unfold getWidthMax32Int; split <;> (try split) <;> (try split) <;> decide

/-! ### Compact integers -/

theorem getWidthMax64Int_cases (n : Nat) : getWidthMax64Int n = 1 ∨ getWidthMax64Int n = 2 ∨
    getWidthMax64Int n = 4 ∨ getWidthMax64Int n = 8 := by
  unfold getWidthMax64Int; split <;> (try split) <;> (try split) <;> simp

theorem encodeIntMax64_eq (num : Nat) : encodeIntMax64 num = beBytes (getWidthMax64Int num) num := by
  unfold encodeIntMax64
  rcases getWidthMax64Int_cases num with h | h | h | h <;> rw [h] <;>
    simp [putU16_eq, putU32_eq, putU64_eq, beBytes]

theorem encodeIntMax64_length (num : Nat) : (encodeIntMax64 num).length = getWidthMax64Int num := by
  rw [encodeIntMax64_eq, beBytes_length]

theorem getWidthMax64Int_bound {n : Nat} (h : n < 2 ^ 64) : n < 256 ^ getWidthMax64Int n := by
  unfold getWidthMax64Int
  split
  · omega
  · split
    · omega
    · split <;> omega

theorem getBE_encodeIntMax64 {n : Nat} (h : n < 2 ^ 64) : getBE (encodeIntMax64 n) = n := by
  rw [encodeIntMax64_eq, getBE_beBytes, Nat.mod_eq_of_lt (getWidthMax64Int_bound h)]

theorem decode_encodeIntMax64 {n : Nat} (h : n < 2 ^ 64) : decodeIntMax64 (encodeIntMax64 n) = .ok n := by
  unfold decodeIntMax64
  rw [encodeIntMax64_length, getBE_encodeIntMax64 h, if_pos]
  exact getWidthMax64Int_cases n

/-! ### Paths -/

/-- The number of bytes of the encoded components. -/
theorem encodeComponents_length (p : PathParams) (path : Path) :
    (encodeComponents p path).length = path.length * getWidthMax32Int p.cl + pathBytes path := by
  induction path with
  | nil => simp [encodeComponents, pathBytes]
  | cons c cs ih =>
    simp only [encodeComponents, List.length_append, ih, encodeIntMax32_length, pathBytes_cons,
      List.length_cons, Nat.succ_mul]
    omega

theorem encodePath_length (p : PathParams) (path : Path) :
    (encodePath p path).length = getWidthMax32Int p.cc + path.length * getWidthMax32Int p.cl + pathBytes path := by
  simp only [encodePath, List.length_append, encodeIntMax32_length, encodeComponents_length]
  omega

theorem encodePathLength_eq (p : PathParams) (path : Path) :
    encodePathLength p path = (encodePath p path).length := by
  rw [encodePath_length]
  unfold encodePathLength
  have : ∀ (path : Path) (n : Nat), path.foldl (fun len c => len + getWidthMax32Int p.cl + c.length) n =
      n + path.length * getWidthMax32Int p.cl + pathBytes path := by
    intro path
    induction path with
    | nil => intro n; simp [pathBytes]
    | cons c cs ih =>
      intro n
      rw [List.foldl_cons, ih, pathBytes_cons, List.length_cons, Nat.succ_mul]
      omega
  exact this path _

/-- The lengths that must fit in 32 bits for the path encoding to work. -/
structure Small (p : PathParams) (path : Path) : Prop where
  count : path.length < 2 ^ 32
  comp : ∀ c ∈ path, c.length < 2 ^ 32

theorem small_of_limits {p : PathParams} (hcc : p.cc < 2 ^ 32) (hcl : p.cl < 2 ^ 32) {path : Path}
    (hv : ValidPath p path) : Small p path :=
  ⟨by have := hv.count; omega, fun c hc => by have := hv.comp c hc; omega⟩

theorem shortPath_of_limits {p : PathParams} (hcc : p.cc < 2 ^ 32) (hcl : p.cl < 2 ^ 32) {path : Path}
    (hv : ValidPath p path) : ShortPath p path :=
  ⟨hv, (small_of_limits hcc hcl hv).count, (small_of_limits hcc hcl hv).comp⟩

instance {p : PathParams} {path : Path} : Coe (ShortPath p path) (ValidPath p path) := ⟨ShortPath.toValidPath⟩

theorem shortPath_small {p : PathParams} {path : Path} (h : ShortPath p path) : Small p path := ⟨h.few, h.short⟩

theorem decodePathLoop_encode (p : PathParams) : ∀ (cs : Path) (pre rest : Bytes) (done : Path) (pos : Nat),
    (∀ c ∈ cs, c.length ≤ p.cl) → (∀ c ∈ cs, c.length < 2 ^ 32) → pos = pre.length →
    decodePathLoop p (pre ++ (encodeComponents p cs ++ rest)) cs.length pos done =
      .ok (pos + (encodeComponents p cs).length, done ++ cs)
  | [], pre, rest, done, pos, _, _, _ => by simp [decodePathLoop, encodeComponents]
  | c :: cs, pre, rest, done, pos, h, h32, hpos => by
    have hc := h c (by simp)
    have hconv : p.conv c.length = c.length := conv_of_le hc p.hcl
    simp only [List.length_cons, decodePathLoop, encodeComponents, hconv]
    have e1 : pre ++ (encodeIntMax32 c.length p.cl ++ c ++ encodeComponents p cs ++ rest) =
        pre ++ (encodeIntMax32 c.length p.cl ++ (c ++ (encodeComponents p cs ++ rest))) := by simp
    rw [e1, slice_mid _ _ _ _ _ hpos (by rw [encodeIntMax32_length]; omega)]
    simp only [Res.ok_bind, decode_encodeIntMax32 hc (h32 c (by simp))]
    have e2 : pre ++ (encodeIntMax32 c.length p.cl ++ (c ++ (encodeComponents p cs ++ rest))) =
        (pre ++ encodeIntMax32 c.length p.cl) ++ (c ++ (encodeComponents p cs ++ rest)) := by simp
    rw [e2, slice_mid _ _ _ _ _ (by simp [encodeIntMax32_length, hpos]) (by simp [encodeIntMax32_length, hpos])]
    simp only [Res.ok_bind]
    have e3 : (pre ++ encodeIntMax32 c.length p.cl) ++ (c ++ (encodeComponents p cs ++ rest)) =
        ((pre ++ encodeIntMax32 c.length p.cl) ++ c) ++ (encodeComponents p cs ++ rest) := by simp
    rw [e3, decodePathLoop_encode p cs _ rest _ _ (fun d hd => h d (by simp [hd]))
      (fun d hd => h32 d (by simp [hd])) (by simp [encodeIntMax32_length, hpos, Nat.add_assoc])]
    simp [encodeIntMax32_length, Nat.add_assoc]

theorem decodePath_encode (p : PathParams) (path : Path) (hv : ValidPath p path) (hs : Small p path) (rest : Bytes) :
    decodePath p (encodePath p path ++ rest) = .ok ((encodePath p path).length, path) := by
  unfold decodePath encodePath
  dsimp only
  rw [conv_of_le hv.count p.hcc, List.append_assoc,
    slice_append_left _ _ _ (encodeIntMax32_length _ _).symm]
  simp only [Res.ok_bind, decode_encodeIntMax32 hv.count hs.count]
  rw [decodePathLoop_encode p path _ rest [] _ hv.comp hs.comp (encodeIntMax32_length _ _).symm]
  simp [encodeIntMax32_length]

theorem decodeIntMax32_lt {b : Bytes} {max n : Nat} (h : decodeIntMax32 b max = .ok n) : n < 2 ^ 32 := by
  unfold decodeIntMax32 at h
  dsimp only at h
  split at h
  · cases h
  · rename_i hl
    have hl : b.length = getWidthMax32Int max := by simpa using hl
    have hb := getBE_lt b
    split at h <;> rename_i hw
    · cases h; rw [hl, hw] at hb; omega
    · cases h; rw [hl, hw] at hb; omega
    · cases h; rw [hl, hw] at hb; omega
    · cases h
      have h3 : b.length ≤ 3 := by
        rw [hl]
        rename_i h1 h2 h3
        have : getWidthMax32Int max = 1 ∨ getWidthMax32Int max = 2 ∨ getWidthMax32Int max = 3 ∨ getWidthMax32Int max = 4 := by
          unfold getWidthMax32Int
          grind
        grind
      have h4 := getBE_lt (b.take 2)
      have h5 := getBE_lt (b.drop 2)
      have h6 : 256 ^ (b.take 2).length ≤ 256 ^ 2 := Nat.pow_le_pow_right (by omega) (by simp; omega)
      have h7 : 256 ^ (b.drop 2).length ≤ 256 ^ 1 := Nat.pow_le_pow_right (by omega) (by simp; omega)
      omega

theorem decodePathLoop_small {p : PathParams} {enc : Bytes} : ∀ (n pos : Nat) (done : Path) {r : Nat × Path},
    decodePathLoop p enc n pos done = .ok r → (∀ c ∈ done, c.length < 2 ^ 32) →
    r.2.length = done.length + n ∧ ∀ c ∈ r.2, c.length < 2 ^ 32
  | 0, pos, done, r, h, hd => by
    simp only [decodePathLoop] at h
    cases h
    exact ⟨rfl, hd⟩
  | n + 1, pos, done, r, h, hd => by
    simp only [decodePathLoop] at h
    obtain ⟨lb, h1, h2⟩ := Res.bind_eq_ok.1 h
    split at h2
    · rename_i len hlen
      obtain ⟨comp, h3, h4⟩ := Res.bind_eq_ok.1 h2
      have h5 := decodePathLoop_small n _ _ h4 (by
        intro c hc
        rw [List.mem_append, List.mem_singleton] at hc
        rcases hc with hc | rfl
        · exact hd c hc
        · have h6 := decodeIntMax32_lt hlen
          unfold slice at h3
          split at h3
          · cases h3
            simp only [List.length_take, List.length_drop]
            omega
          · cases h3)
      refine ⟨?_, h5.2⟩
      rw [h5.1]
      simp
      omega
    · cases h2

theorem decodePath_small {p : PathParams} {enc : Bytes} {r : Nat × Path} (h : decodePath p enc = .ok r) : Small p r.2 := by
  unfold decodePath at h
  obtain ⟨b, _, h⟩ := Res.bind_eq_ok.1 h
  obtain ⟨n, h1, h⟩ := Res.bind_eq_ok.1 h
  obtain ⟨h2, h3⟩ := decodePathLoop_small _ _ _ h (by simp)
  exact ⟨by rw [h2]; simpa using decodeIntMax32_lt h1, h3⟩

theorem encodePath_inj {p : PathParams} {a b : Path} (ha : ValidPath p a) (hb : ValidPath p b)
    (sa : Small p a) (sb : Small p b) {s t : Bytes} (h : encodePath p a ++ s = encodePath p b ++ t) :
    a = b ∧ s = t := by
  have h1 := decodePath_encode p a ha sa s
  rw [h, decodePath_encode p b hb sb t] at h1
  simp only [Res.ok.injEq, Prod.mk.injEq] at h1
  obtain ⟨h1, h2⟩ := h1
  subst h2
  exact ⟨rfl, List.append_cancel_left h⟩

/-! ### Common prefix -/

theorem commonPrefixIndex_spec : ∀ a b : Path,
    commonPrefixIndex a b ≤ a.length ∧ commonPrefixIndex a b ≤ b.length ∧
    a.take (commonPrefixIndex a b) = b.take (commonPrefixIndex a b)
  | [], _ => by simp [commonPrefixIndex]
  | _ :: _, [] => by simp [commonPrefixIndex]
  | c :: cs, d :: ds => by
    have ih := commonPrefixIndex_spec cs ds
    unfold commonPrefixIndex
    split
    · simp
    · rename_i h
      have : c = d := (decides_bytes.eq_iff c d).1 (Classical.not_not.mp h)
      subst this
      simp only [List.length_cons, Nat.add_le_add_iff_right, List.take_succ_cons, ih, true_and]

theorem commonPrefixIndex_max : ∀ (a b : Path) (j : Nat), j ≤ a.length → j ≤ b.length → a.take j = b.take j →
    j ≤ commonPrefixIndex a b
  | _, _, 0, _, _, _ => Nat.zero_le _
  | c :: cs, d :: ds, j + 1, h1, h2, h3 => by
    simp only [List.take_succ_cons, List.cons.injEq] at h3
    unfold commonPrefixIndex
    rw [if_neg (by simpa using (decides_bytes.eq_iff c d).2 h3.1)]
    have := commonPrefixIndex_max cs ds j (by simpa using h1) (by simpa using h2) h3.2
    omega

theorem commonPrefixIndex_pos {c : Bytes} {cs ds : Path} : 0 < commonPrefixIndex (c :: cs) (c :: ds) := by
  unfold commonPrefixIndex
  rw [if_neg (by simpa using (decides_bytes.eq_iff c c).2 rfl)]
  omega

theorem commonPrefix_shared {a r : Path} (h : ∃ c, a.head? = some c ∧ r.head? = some c) : ∃ l, commonPrefix a r = .ok l := by
  obtain ⟨h1, -, -⟩ := commonPrefixIndex_spec a r
  refine ⟨a.take (commonPrefixIndex a r), ?_⟩
  have hpos : commonPrefixIndex a r ≠ 0 := by
    obtain ⟨c, hc1, hc2⟩ := h
    match a, r, hc1, hc2 with
    | _ :: cs, _ :: ds, rfl, rfl => have := @commonPrefixIndex_pos c cs ds; omega
  simp only [commonPrefix, if_neg hpos, slice_take _ _ h1]

theorem commonPrefix_unshared {a r : Path} (h : ¬ ∃ c, a.head? = some c ∧ r.head? = some c) : commonPrefix a r = .err := by
  have : commonPrefixIndex a r = 0 := by
    match a, r with
    | [], _ => simp [commonPrefixIndex]
    | _ :: _, [] => simp [commonPrefixIndex]
    | c :: cs, d :: ds =>
      unfold commonPrefixIndex
      rw [if_pos]
      intro he
      have := (decides_bytes.eq_iff c d).1 he
      exact h ⟨c, rfl, by rw [this]; rfl⟩
  simp [commonPrefix, this]

theorem encodeRelativePath_crash {p : PathParams} {a r : Path} (h : ¬ ∃ c, a.head? = some c ∧ r.head? = some c) :
    encodeRelativePath p a r = .crash := by
  unfold encodeRelativePath
  rw [commonPrefix_unshared h]

/-- Encoding relative to a path with the same first component succeeds. -/
theorem encodeRelativePath_ok {p : PathParams} {a r : Path} (h : ∃ c, a.head? = some c ∧ r.head? = some c) :
    ∃ enc, encodeRelativePath p a r = .ok enc := by
  obtain ⟨h1, h2, h3⟩ := commonPrefixIndex_spec a r
  have hpos : commonPrefixIndex a r ≠ 0 := by
    obtain ⟨c, hc1, hc2⟩ := h
    match a, r, hc1, hc2 with
    | _ :: cs, _ :: ds, rfl, rfl => have := @commonPrefixIndex_pos c cs ds; omega
  have hcp : commonPrefix a r = .ok (a.take (commonPrefixIndex a r)) := by
    simp only [commonPrefix, if_neg hpos, slice_take _ _ h1]
  refine ⟨encodeIntMax32 (p.conv (commonPrefixIndex a r)) p.cc ++ encodePath p (a.drop (commonPrefixIndex a r)), ?_⟩
  · have hlen : (a.take (commonPrefixIndex a r)).length = commonPrefixIndex a r := by simp [h1]
    simp only [encodeRelativePath, hcp, hlen, sliceFrom_drop _ _ h1, Res.ok_bind]

end Willow
