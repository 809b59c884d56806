import Verif.Lemmas.JsonUnique
import Verif.Lemmas.Base64
import Verif.Lemmas.PropsHelpers

/-! C102 (database keys), C103 (distances of tree keys) and C104 (keys of namespaces). -/

namespace Willow.Props

open Willow Spec

/-! ## C102 -/

/-- C102: the prefix test answers without panicking whether one key is a prefix of another. -/
theorem C102_prefix (a b : Bytes) : isFirstPrefixOfSecond a b = .ok (decide (a <+: b)) := by
  unfold isFirstPrefixOfSecond
  split
  · rename_i h
    have : ¬ a <+: b := fun hp => by have := hp.length_le; omega
    simp [this]
  · rename_i h
    exact prefixLoop_eq a b (by omega)

example : isFirstPrefixOfSecond [1, 2] [1, 2, 3] = .ok true ∧ isFirstPrefixOfSecond [1, 3] [1, 2, 3] = .ok false ∧
    isFirstPrefixOfSecond [1, 2, 3] [1, 2] = .ok false := by decide

/-- C102: the comparison of keys never panics; it says "equal" for equal keys only, is reversed when
the keys are exchanged, is transitive, and is the byte order of the database on keys of one length.
Missing: the order of the database on keys of different lengths (`C102_violated_order`). -/
theorem C102_compare_partial (a b : Bytes) :
    (∃ o, compareKeys a b = .ok o ∧ compareKeys b a = .ok o.swap ∧ (o = .eq ↔ a = b) ∧
      (a.length = b.length → (o = .lt ↔ BytesLt a b))) ∧
    (∀ c, compareKeys a b = .ok .lt → compareKeys b c = .ok .lt → compareKeys a c = .ok .lt) := by
  have hsw : orderBytes b a = (orderBytes a b).swap := by
    cases h : orderBytes a b with
    | lt => rw [decides_bytes.lt_iff] at h; exact (decides_bytes.gt_iff b a).2 h
    | eq => rw [decides_bytes.eq_iff] at h; exact (decides_bytes.eq_iff b a).2 h.symm
    | gt => rw [decides_bytes.gt_iff] at h; exact (decides_bytes.lt_iff b a).2 h
  refine ⟨⟨_, compareKeys_eq a b, ?_, ?_, ?_⟩, fun c h1 h2 => ?_⟩
  · rw [compareKeys_eq b a, hsw]
    congr 1
    by_cases h1 : a.length < b.length
    · rw [if_pos h1, if_neg (by omega), if_pos h1]; rfl
    · by_cases h2 : b.length < a.length
      · rw [if_pos h2, if_neg h1, if_pos h2]; rfl
      · rw [if_neg h2, if_neg h1, if_neg h1, if_neg h2]
  · rw [← decides_bytes.eq_iff a b]
    by_cases h1 : a.length < b.length
    · rw [if_pos h1, decides_bytes.eq_iff]
      exact ⟨(fun h => by cases h), (fun h => by subst h; omega)⟩
    · by_cases h2 : b.length < a.length
      · rw [if_neg h1, if_pos h2, decides_bytes.eq_iff]
        exact ⟨(fun h => by cases h), (fun h => by subst h; omega)⟩
      · rw [if_neg h1, if_neg h2]
  · intro hl
    rw [if_neg (by omega), if_neg (by omega), decides_bytes.lt_iff]
  · rw [compareKeys_eq] at h1 h2 ⊢
    simp only [Res.ok.injEq] at h1 h2 ⊢
    have tr : orderBytes a b = .lt → orderBytes b c = .lt → orderBytes a c = .lt := by
      rw [decides_bytes.lt_iff, decides_bytes.lt_iff, decides_bytes.lt_iff]
      exact bytesLt_strictTotal.trans a b c
    grind

example : compareKeys [1, 2] [1, 3] = .ok .lt ∧ compareKeys [9] [1, 3] = .ok .lt ∧ BytesLt [1, 2] [1, 3] := by
  refine ⟨by decide, by decide, ?_⟩
  rw [← decides_bytes.lt_iff]
  decide

/-- C102: the comparison is the order by length first, then by bytes. -/
theorem C102_compare_exact (a b : Bytes) :
    compareKeys a b = .ok .lt ↔ a.length < b.length ∨ (a.length = b.length ∧ BytesLt a b) := by
  rw [compareKeys_eq, Res.ok.injEq]
  by_cases h1 : a.length < b.length
  · simp [h1]
  · by_cases h2 : b.length < a.length
    · rw [if_neg h1, if_pos h2]
      refine ⟨(fun h => by cases h), fun h => ?_⟩
      omega
    · rw [if_neg h1, if_neg h2, decides_bytes.lt_iff]
      exact ⟨fun h => .inr ⟨by omega, h⟩, fun h => (h.resolve_left h1).2⟩

example : compareKeys [2] [1, 1] = .ok .lt ∧ compareKeys [1, 1] [1, 2] = .ok .lt ∧ compareKeys [1, 1] [2] = .ok .gt := by
  refine ⟨by decide, by decide, by decide⟩

/-- C102 is violated: the comparison puts shorter keys first, the database does not
(`/repo/pkg/data_model/kv_driver/kv_driver_pebble.go:44-47`). Below every key that does not begin
with the byte 0 there are, in the order of the database, keys that the comparison puts above it; `[2]` is
below `[1, 1]` for `CompareKeys`, and above it in the database. -/
theorem C102_violated_order (x : UInt8) (hx : x ≠ 0) (a b : Bytes) (hl : a.length < b.length) :
    compareKeys (x :: a) (0 :: b) = .ok .lt ∧ BytesLt (0 :: b) (x :: a) := by
  refine ⟨(C102_compare_exact _ _).2 (.inl (by simpa using hl)), ?_⟩
  rw [← decides_bytes.lt_iff]
  have h0 : (0 : UInt8) < x := by
    have : x.toNat ≠ 0 := fun h => hx (UInt8.toNat_inj.1 (by simpa using h))
    rw [UInt8.lt_iff_toNat_lt]
    simp; omega
  simp [orderBytes, h0]

example : (2 : UInt8) ≠ 0 ∧ ([] : Bytes).length < [1].length := by decide

/-- C102: reading several keys gives the value of each in order, exactly when each has one. -/
theorem C102_multiple (kv : KV) (keys values : List Bytes) :
    getMultipleValues kv keys = some values ↔ keys.map kv.get = values.map some := by
  induction keys generalizing values with
  | nil => cases values <;> simp [getMultipleValues]
  | cons k keys ih =>
    unfold getMultipleValues
    cases hk : kv.get k with
    | none => cases values <;> simp [hk]
    | some v =>
      cases hm : getMultipleValues kv keys with
      | none =>
        cases values with
        | nil => simp
        | cons w values =>
          have := ih values
          simp [hm] at this
          simp [hk, this]
      | some vs =>
        have h0 := (ih vs).1 hm
        cases values with
        | nil => simp
        | cons w values =>
          simp only [Option.some.injEq, List.cons.injEq, List.map_cons, hk, h0]
          refine and_congr_right fun _ => ?_
          exact ⟨fun h => by rw [h], fun h => List.map_inj_right (fun _ _ h => Option.some.inj h) |>.1 h⟩

example : getMultipleValues [([1], [7]), ([2], [8])] [[2], [1], [2]] = some [[8], [7], [8]] ∧
    getMultipleValues [([1], [7]), ([2], [8])] [[2], [3]] = none := by decide

/-- C102: after `Clear` no key has a value. -/
theorem C102_clear (kv : KV) (k : Bytes) : kv.clear.get k = none :=
  foldl_delete_get kv kv k (get_mem_keys kv k)

example : KV.clear [([1], [7]), ([2], [8])] = [] ∧ KV.get [([1], [7]), ([2], [8])] [2] = some [8] := by decide

/-! ## C103 -/

/-- C103: the distance of two keys does not depend on their order, nor does the distance in one
dimension. -/
theorem C103_symmetric (a b : KdKey) (dim : Nat) : a.dist b = b.dist a ∧ a.distDim b dim = b.distDim a dim := by
  have hb : orderBytes a.pos.subspace b.pos.subspace = .eq ↔ orderBytes b.pos.subspace a.pos.subspace = .eq := by
    rw [decides_bytes.eq_iff, decides_bytes.eq_iff]; exact eq_comm
  have hp : orderPath a.pos.path b.pos.path = .eq ↔ orderPath b.pos.path a.pos.path = .eq := by
    rw [decides_path.eq_iff, decides_path.eq_iff]; exact eq_comm
  constructor
  · simp only [KdKey.dist, square_symm a.pos.time b.pos.time, ne_eq, hb, hp]
  · unfold KdKey.distDim
    rw [square_symm]

example : KdKey.dist ⟨⟨[1], [], 3⟩, []⟩ ⟨⟨[2], [], 8⟩, []⟩ = 26 ∧ KdKey.dist ⟨⟨[2], [], 8⟩, []⟩ ⟨⟨[1], [], 3⟩, []⟩ = 26 := by
  decide +kernel

/-- C103: when the times are less than about 3 · 10⁹ microseconds (51 minutes) apart, the distance is
the square of the difference of the times, one more if the subspaces differ and one more if the paths
differ; so it is not negative, and zero for equal positions only. Missing: times further apart
(`C103_violated_wrap`). -/
theorem C103_dist_partial (a b : KdKey)
    (h : ((a.pos.time.toNat : Int) - b.pos.time.toNat) * ((a.pos.time.toNat : Int) - b.pos.time.toNat) + 2 < 2 ^ 63) :
    a.dist b = ((a.pos.time.toNat : Int) - b.pos.time.toNat) * ((a.pos.time.toNat : Int) - b.pos.time.toNat) +
      (if a.pos.subspace = b.pos.subspace then 0 else 1) + (if a.pos.path = b.pos.path then 0 else 1) ∧
    0 ≤ a.dist b ∧ (a.dist b = 0 ↔ a.pos = b.pos) := by
  have hsq := square_toNat a.pos.time b.pos.time h
  have hnn : 0 ≤ ((a.pos.time.toNat : Int) - b.pos.time.toNat) * ((a.pos.time.toNat : Int) - b.pos.time.toNat) := by
    rw [← hsq]; omega
  have hmain : a.dist b = ((a.pos.time.toNat : Int) - b.pos.time.toNat) * ((a.pos.time.toNat : Int) - b.pos.time.toNat) +
      (if a.pos.subspace = b.pos.subspace then 0 else 1) + (if a.pos.path = b.pos.path then 0 else 1) := by
    simp only [KdKey.dist, ne_eq, decides_bytes.eq_iff, decides_path.eq_iff, ite_not]
    generalize hs : (a.pos.time - b.pos.time) * (a.pos.time - b.pos.time) = s at hsq ⊢
    rw [← hsq] at h ⊢
    have o : ∀ u : UInt64, u.toNat ≤ 2 → goInt (s + u).toNat = (s.toNat : Int) + u.toNat := by
      intro u hu
      rw [UInt64.toNat_add, Nat.mod_eq_of_lt (by omega)]
      unfold goInt
      rw [if_pos (by omega)]
      omega
    rw [o]
    · split <;> split <;> simp <;> omega
    · split <;> split <;> decide
  refine ⟨hmain, ?_, ?_⟩
  · rw [hmain]; split <;> split <;> omega
  · rw [hmain]
    constructor
    · intro h0
      have h1 : a.pos.subspace = b.pos.subspace := by
        refine Classical.byContradiction fun hn => ?_
        rw [if_neg hn] at h0
        split at h0 <;> omega
      have h2 : a.pos.path = b.pos.path := by
        refine Classical.byContradiction fun hn => ?_
        rw [if_neg hn, if_pos h1] at h0
        omega
      rw [if_pos h1, if_pos h2] at h0
      have h3 : (a.pos.time.toNat : Int) - b.pos.time.toNat = 0 := by
        have : ((a.pos.time.toNat : Int) - b.pos.time.toNat) * ((a.pos.time.toNat : Int) - b.pos.time.toNat) = 0 := by omega
        rcases Int.mul_eq_zero.1 this with h | h <;> exact h
      have h4 : a.pos.time = b.pos.time := by rw [← UInt64.toNat_inj]; omega
      cases ha : a.pos; cases hb : b.pos
      simp_all
    · intro he
      rw [he]
      simp

example : KdKey.dist ⟨⟨[1], [[1]], 3⟩, []⟩ ⟨⟨[1], [[2]], 1000⟩, []⟩ = 994010 := by decide +kernel

/-- C103 is violated: times 2³² microseconds (72 minutes) apart have distance zero, and times a little
closer have a negative distance: the square is taken modulo 2⁶⁴
(`/repo/pkg/data_model/kdnode/willowkdtreenode.go:75,89`). -/
theorem C103_violated_wrap (s : Bytes) (p : Path) (t : UInt64) (f g : Bytes) :
    KdKey.dist ⟨⟨s, p, t + 4294967296⟩, f⟩ ⟨⟨s, p, t⟩, g⟩ = 0 ∧ KdKey.dist ⟨⟨s, p, t + 4000000000⟩, f⟩ ⟨⟨s, p, t⟩, g⟩ < 0 := by
  have hb : orderBytes s s = .eq := (decides_bytes.eq_iff _ _).2 rfl
  have hp : orderPath p p = .eq := (decides_path.eq_iff _ _).2 rfl
  have hc : ∀ c : UInt64, t + c - t = c := by intro c; grind
  simp only [KdKey.dist, hb, hp, hc]
  decide +kernel

example : KdKey.dist ⟨⟨[1], [], 4294967300⟩, []⟩ ⟨⟨[1], [], 4⟩, []⟩ = 0 := by decide +kernel

/-- C103 is violated: the distance in one dimension is no lower bound of the distance: it is 1 in
subspace and path even from a key to itself (`/repo/pkg/data_model/kdnode/willowkdtreenode.go:58-70`).
A search for nearest neighbours that skips subtrees by it would skip keys. -/
theorem C103_violated_dimension (a : KdKey) : a.dist a = 0 ∧ a.distDim a 1 = 1 ∧ a.distDim a 2 = 1 := by
  refine ⟨?_, rfl, rfl⟩
  have hb : orderBytes a.pos.subspace a.pos.subspace = .eq := (decides_bytes.eq_iff _ _).2 rfl
  have hp : orderPath a.pos.path a.pos.path = .eq := (decides_path.eq_iff _ _).2 rfl
  simp only [KdKey.dist, hb, hp, UInt64.sub_self]
  decide +kernel

example : KdKey.dist ⟨⟨[1], [], 4⟩, []⟩ ⟨⟨[1], [], 4⟩, []⟩ = 0 := by decide +kernel

/-! ## C104 -/

/-- C104: with an encoding that keeps namespaces apart, two namespaces have the same key only when
they are equal, so capabilities of different namespaces are never mixed. -/
theorem C104_key (encode : Bytes → Bytes) (hinj : ∀ a b, encode a = encode b → a = b) (m n : Bytes) :
    namespaceKey encode m = namespaceKey encode n ↔ m = n :=
  ⟨fun h => hinj _ _ (base64Encode_inj _ _ h), fun h => by rw [h]⟩

example : namespaceKey id "fami".toUTF8.toList = "ZmFtaQ==".toUTF8.toList ∧ namespaceKey id "family".toUTF8.toList = "ZmFtaWx5".toUTF8.toList := by
  decide +kernel

/-- C104: the key of a namespace is its encoding in base 64, as the standard has it. -/
theorem C104_standard (encode : Bytes → Bytes) (n : Bytes) : Base64Text (encode n) (namespaceKey encode n) := base64Encode_text _

example : Base64Text [255] [47, 119, 61, 61] ∧ namespaceKey id [255] = [47, 119, 61, 61] :=
  ⟨⟨[63, 48], 2, by decide +kernel, by decide, by decide, by decide⟩, by decide +kernel⟩

/-- C104: and it is the encoding in base 64 of nothing else. -/
theorem C104_unique (encode : Bytes → Bytes) (n a : Bytes) (h : Base64Text a (namespaceKey encode n)) : a = encode n :=
  base64Text_unique h (base64Encode_text _)

example : Base64Text [102, 97, 109] (namespaceKey id [102, 97, 109]) := base64Encode_text _

/-- C104: keys have four characters for every three bytes or part of three, all of them of the base 64
alphabet or the padding. -/
theorem C104_text (b : Bytes) : (base64Encode b).length = (b.length + 2) / 3 * 4 ∧
    ∀ c ∈ base64Encode b, c ∈ "ABCDEFGHIJKLMNOPQRSTUVWXYZabcdefghijklmnopqrstuvwxyz0123456789+/=".toUTF8.toList := by
  have key : ∀ n, base64Char n ∈ "ABCDEFGHIJKLMNOPQRSTUVWXYZabcdefghijklmnopqrstuvwxyz0123456789+/=".toUTF8.toList := by
    intro n
    have h1 : ∀ n : Fin 64, base64Char n ∈ "ABCDEFGHIJKLMNOPQRSTUVWXYZabcdefghijklmnopqrstuvwxyz0123456789+/=".toUTF8.toList := by
      decide +kernel
    by_cases hn : n < 64
    · exact h1 ⟨n, hn⟩
    · have : base64Char n = base64Char 63 := by
        unfold base64Char
        rw [if_neg (by omega), if_neg (by omega), if_neg (by omega), if_neg (by omega)]
        rfl
      rw [this]
      exact h1 63
  have pad : (61 : UInt8) ∈ "ABCDEFGHIJKLMNOPQRSTUVWXYZabcdefghijklmnopqrstuvwxyz0123456789+/=".toUTF8.toList := by decide +kernel
  generalize "ABCDEFGHIJKLMNOPQRSTUVWXYZabcdefghijklmnopqrstuvwxyz0123456789+/=".toUTF8.toList = alphabet at key pad ⊢
  fun_induction base64Encode b with
  | case1 a b c rest ih =>
    refine ⟨by simp only [List.length_append, ih.1, base64Block, List.length_cons, List.length_nil]; omega, fun x hx => ?_⟩
    rcases List.mem_append.1 hx with hx | hx
    · simp only [base64Block, List.mem_cons, List.not_mem_nil, or_false] at hx
      rcases hx with rfl | rfl | rfl | rfl <;> exact key _
    · exact ih.2 x hx
  | case2 a b =>
    refine ⟨by simp [base64Block], fun x hx => ?_⟩
    simp only [base64Block, List.take_succ_cons, List.take_zero, List.cons_append, List.nil_append, List.mem_cons, List.not_mem_nil,
      or_false] at hx
    rcases hx with rfl | rfl | rfl | rfl <;> first | exact key _ | exact pad
  | case3 a =>
    refine ⟨by simp [base64Block], fun x hx => ?_⟩
    simp only [base64Block, List.take_succ_cons, List.take_zero, List.cons_append, List.nil_append, List.mem_cons, List.not_mem_nil,
      or_false] at hx
    rcases hx with rfl | rfl | rfl | rfl <;> first | exact key _ | exact pad
  | case4 => exact ⟨rfl, fun x hx => by simp at hx⟩

example : (base64Encode [1, 2, 3, 4]).length = 8 := by decide

end Willow.Props
